import Verif.Lemmas.TransformFit
import Mathlib.Data.List.Dedup

/-!
# C35, C37: transformers are invertible and differentiate correctly

The contracts `Invertible`, `InvertibleAt`, `Differentiates` are in `Verif.Props.TransformSpec`.
-/

namespace Opinf

open List

variable {K S T : Type}

/-! ### Built-in transformers -/

section Leaves

variable [Field K] [LinearOrder K] [IsStrictOrderedRing K]

omit [LinearOrder K] [IsStrictOrderedRing K] in
/-- C35 for `ShiftTransformer`: every reference snapshot. -/
theorem C35_shift_invertible (s : Shift K) :
    shiftI.Invertible s s.qbar.length ∧ shiftI.InvertibleAt s s.qbar.length :=
  ⟨(shift_affine s).invertible, (shift_affine s).invertibleAt (shift_affineAt s)⟩

omit [IsStrictOrderedRing K] in
/-- A scale transformer as constructed, after a successful `fit`, is ready. -/
theorem scale_fit_ready {c : Coef K} {name : Option String} {s s' : Scale K} {Y : Snap K}
    (hm : Scale.make c name = .ok s) (hf : s.fit Y = (s', .ok ())) : s'.Ready Y.len := by
  unfold Scale.make at hm
  split at hm
  · cases hm
  rename_i h0
  cases c with
  | num a =>
    simp only [Except.ok.injEq] at hm
    subst hm
    simp only [Scale.fit, Coef.isArr, Bool.false_eq_true, if_false, Prod.mk.injEq] at hf
    obtain ⟨rfl, _⟩ := hf
    exact ⟨rfl, trivial, h0⟩
  | arr as =>
    simp only [Except.ok.injEq] at hm
    subst hm
    simp only [Scale.fit, Coef.isArr, if_true, Prod.mk.injEq] at hf
    obtain ⟨rfl, hc⟩ := hf
    simp only [checkShape] at hc
    split at hc
    · rename_i hl
      exact ⟨by simp [hl], hl.symm, h0⟩
    · cases hc

omit [IsStrictOrderedRing K] in
/-- C35 for `ScaleTransformer`: every accepted scaling, after `fit` to data of any admissible size. -/
theorem C35_scale_invertible {c : Coef K} {name : Option String} {s s' : Scale K} {Y : Snap K}
    (hm : Scale.make c name = .ok s) (hf : scaleI.fit s Y = (s', .ok ())) :
    scaleI.Invertible s' Y.len ∧ scaleI.InvertibleAt s' Y.len :=
  have h := scale_fit_ready hm hf
  ⟨(scale_affine h).invertible, (scale_affine h).invertibleAt (scale_affineAt h)⟩

omit [LinearOrder K] [IsStrictOrderedRing K] in
/-- C35 for `NullTransformer` with a known state dimension. -/
theorem C35_null_invertible {s : Null} {n : Nat} (h : s.n = some n) :
    (nullI (K := K)).Invertible s n ∧ (nullI (K := K)).InvertibleAt s n :=
  ⟨(null_affine h).invertible, (null_affine h).invertibleAt (null_affineAt h)⟩

/-- Fitting data that can be fitted are two-dimensional. -/
theorem sst_fit_ready {sqrt : K → K} {s s' : Sst K} {Y Y' Z : Snap K} {b : Bool}
    (h : (sstI sqrt).fitTransform s b Y = (s', Y', .ok Z)) :
    s'.Ready Y.len ∧ s'.byrow = s.byrow ∧ s'.scaling = s.scaling := by
  simp only [sstI, Prod.mk.injEq] at h
  obtain ⟨h1, h2⟩ := h
  have h3 := onBuffer_eq_ok h2
  cases Y with
  | vec xs => simp [Sst.fitTransform] at h3
  | mat k rows =>
    have := sst_fit_ok (sqrt := sqrt) (s := s) (s' := s') (k := k) (rows := rows) (Z := Z)
      (Prod.ext h1 h3)
    exact ⟨this.ready, this.byrow, this.scaling⟩

/-- C35 for `ShiftScaleTransformer`: whatever the options, after calibration with any data on which the
calibration succeeds, the transformer is invertible on all states of this size. -/
theorem C35_shiftscale_invertible {sqrt : K → K} {s s' : Sst K} {Y Y' Z : Snap K} {b : Bool}
    (h : (sstI sqrt).fitTransform s b Y = (s', Y', .ok Z)) : (sstI sqrt).Invertible s' Y.len :=
  (sst_affine sqrt (sst_fit_ready h).1).invertible

/-- C35 at selected locations for `ShiftScaleTransformer`. Missing from the full claim: the combination
`byrow=True` with `scaling=None`, for which it is false (`C35_locs_unscaled_byrow_raises`). -/
theorem C35_shiftscale_locs_partial {sqrt : K → K} {s s' : Sst K} {Y Y' Z : Snap K} {b : Bool}
    (hb : s.byrow = true → s.scaling.isSome)
    (h : (sstI sqrt).fitTransform s b Y = (s', Y', .ok Z)) : (sstI sqrt).InvertibleAt s' Y.len := by
  obtain ⟨hr, h1, h2⟩ := sst_fit_ready h
  exact (sst_affine sqrt hr).invertibleAt (sst_affineAt sqrt hr (by rw [h1, h2]; exact hb))

/-- C35 fails for `byrow=True`, `scaling=None` (a pure centering, or no transformation at all) at
selected locations: after calibration with any data the call raises `TypeError` for every state and all
locations. -/
theorem C35_locs_unscaled_byrow_raises (sqrt : K → K) {centering verbose b : Bool} {name : Option String}
    {s s' : Sst K} {Q Q' Z : Snap K} (hm : Sst.make centering none true name verbose = .ok s)
    (hf : (sstI sqrt).fitTransform s b Q = (s', Q', .ok Z)) (Y : Snap K) (l : Locs)
    (ix : List Nat) (hl : locate Q.len l = .ok ix) (hY : Y.len = ix.length) (inplace : Bool) :
    (sstI sqrt).inverse s' inplace Y (some l) = (Y, .error .type) := by
  have hs : s = ⟨centering, none, true, name, verbose, none, none, none, none⟩ := by
    simpa [Sst.make, eq_comm] using hm
  subst hs
  obtain ⟨h, hb, _⟩ := sst_fit_ready hf
  have hbeta : s'.beta = none := by
    simp only [sstI, Prod.mk.injEq] at hf
    obtain ⟨h1, h2⟩ := hf
    cases Q with
    | vec xs => simpa [Sst.fitTransform, eq_comm] using congrArg Sst.beta h1.symm
    | mat k rows =>
      exact ((sst_fit_ok (sqrt := sqrt) (Prod.ext h1 (onBuffer_eq_ok h2))).keepScale rfl).2
  obtain ⟨is, hc, hm, hlen, hix⟩ := locate_eq hl
  simp only [sstI]
  refine onBuffer_error (f := fun Y => s'.inverse Y (some l)) ?_
  rw [Sst.inverse_some s' Y l is h.trained (by rw [h.dim]; exact hc _ (hY.trans hlen))]
  simp [Sst.paramsAt, hb, hbeta, Coef.at, bind, Except.bind]

omit [LinearOrder K] [IsStrictOrderedRing K] in
/-- C37 for `ShiftTransformer`. -/
theorem C37_shift_differentiates (s : Shift K) : shiftI.Differentiates s s.qbar.length :=
  (shift_affine s).differentiates

omit [IsStrictOrderedRing K] in
/-- C37 for `ScaleTransformer`. -/
theorem C37_scale_differentiates {c : Coef K} {name : Option String} {s s' : Scale K} {Y : Snap K}
    (hm : Scale.make c name = .ok s) (hf : scaleI.fit s Y = (s', .ok ())) :
    scaleI.Differentiates s' Y.len :=
  (scale_affine (scale_fit_ready hm hf)).differentiates

omit [LinearOrder K] [IsStrictOrderedRing K] in
/-- C37 for `NullTransformer`. -/
theorem C37_null_differentiates {s : Null} {n : Nat} (h : s.n = some n) :
    (nullI (K := K)).Differentiates s n :=
  (null_affine h).differentiates

/-- C37 for `ShiftScaleTransformer`, whatever the options and the training data. -/
theorem C37_shiftscale_differentiates {sqrt : K → K} {s s' : Sst K} {Y Y' Z : Snap K} {b : Bool}
    (h : (sstI sqrt).fitTransform s b Y = (s', Y', .ok Z)) : (sstI sqrt).Differentiates s' Y.len :=
  (sst_affine sqrt (sst_fit_ready h).1).differentiates

end Leaves

/-! ### Mixed lists of transformers -/

theorem sum_invertible_inl {I : TfI K S} {J : TfI K T} {s : S} {n : Nat} (h : I.Invertible s n) :
    (sumI I J).Invertible (.inl s) n := ⟨h.dim, h.forth, h.back, h.reject, h.rejectInv⟩

theorem sum_invertible_inr {I : TfI K S} {J : TfI K T} {t : T} {n : Nat} (h : J.Invertible t n) :
    (sumI I J).Invertible (.inr t) n := ⟨h.dim, h.forth, h.back, h.reject, h.rejectInv⟩

theorem sum_invertibleAt_inl [Zero K] {I : TfI K S} {J : TfI K T} {s : S} {n : Nat}
    (h : I.InvertibleAt s n) : (sumI I J).InvertibleAt (.inl s) n := h

theorem sum_invertibleAt_inr [Zero K] {I : TfI K S} {J : TfI K T} {t : T} {n : Nat}
    (h : J.InvertibleAt t n) : (sumI I J).InvertibleAt (.inr t) n := h

theorem sum_differentiates_inl [Field K] {I : TfI K S} {J : TfI K T} {s : S} {n : Nat}
    (h : I.Differentiates s n) : (sumI I J).Differentiates (.inl s) n := h

theorem sum_differentiates_inr [Field K] {I : TfI K S} {J : TfI K T} {t : T} {n : Nat}
    (h : J.Differentiates t n) : (sumI I J).Differentiates (.inr t) n := h

/-! ### Pipelines -/

theorem chain_cons {f : S → Bool → Snap K → Buf K} {t : S} {ts : List S} {b : Bool} {Y Y1 Z : Snap K}
    (h1 : f t b Y = yields b Y Y1) (h2 : chain f ts true Y1 = yields true Y1 Z) :
    chain f (t :: ts) b Y = yields b Y Z := by
  cases b <;> simp [chain, h1, h2, yields]

theorem chain_append {f : S → Bool → Snap K → Buf K} {l1 l2 : List S} {b : Bool} {Y Y1 Z : Snap K}
    (h1 : chain f l1 b Y = yields b Y Y1) (h2 : ∀ b, chain f l2 b Y1 = yields b Y1 Z) :
    chain f (l1 ++ l2) b Y = yields b Y Z := by
  induction l1 generalizing b Y with
  | nil =>
    have : Y = Y1 := by
      have := congrArg Prod.snd h1
      simpa [chain, yields] using this
    subst this
    exact h2 b
  | cons t l1 ih =>
    simp only [chain] at h1
    cases hf : f t b Y with
    | mk Y' r =>
      rw [hf] at h1
      cases r with
      | error e =>
        have := congrArg Prod.snd h1
        simp [yields] at this
      | ok Z' =>
        have hr : (chain f l1 true Z').2 = .ok Y1 := by
          have := congrArg Prod.snd h1
          simpa [yields] using this
        simp only at h1
        have hfst := congrArg Prod.fst h1
        simp only [yields] at hfst
        cases b with
        | true =>
          simp only [if_true] at hfst
          have := ih (b := true) (Y := Z') (Prod.ext (by simp [yields, hfst]) (by simp [yields, hr]))
          simp only [cons_append, chain, hf, this]
          simp [yields]
        | false =>
          simp only [Bool.false_eq_true, if_false] at hfst
          subst hfst
          -- the buffer of the tail is not visible; only the result matters
          have key : ∀ (l : List S) (W : Snap K), (chain f l true W).2 = .ok Y1 →
              (chain f (l ++ l2) true W).2 = .ok Z := by
            intro l
            induction l with
            | nil =>
              intro W hW
              simp only [chain, Except.ok.injEq] at hW
              subst hW
              rw [nil_append, h2 true]
              rfl
            | cons t l ihl =>
              intro W hW
              simp only [chain] at hW
              simp only [cons_append, chain]
              cases hft : f t true W with
              | mk W' r =>
                rw [hft] at hW
                cases r with
                | error e => simp at hW
                | ok V => exact ihl V hW
          simp only [cons_append, chain, hf, key l1 Z' hr]
          simp [yields]

/-- All transformers of a pipeline one after another, and back. -/
theorem chain_invertible {I : TfI K S} {n : Nat} (ts : List S) (h : ∀ t ∈ ts, I.Invertible t n)
    {c : Option Nat} : (∀ Y, Snap.Shaped Y n c → ∃ Z, Snap.Shaped Z n c ∧
      (∀ b, chain I.transform ts b Y = yields b Y Z) ∧
      ∀ b, chain (fun t b Y => I.inverse t b Y none) ts.reverse b Z = yields b Z Y) ∧
    (∀ Z, Snap.Shaped Z n c → ∃ Y, Snap.Shaped Y n c ∧
      (∀ b, chain I.transform ts b Y = yields b Y Z) ∧
      ∀ b, chain (fun t b Y => I.inverse t b Y none) ts.reverse b Z = yields b Z Y) := by
  induction ts with
  | nil =>
    have hnil : ∀ (f : S → Bool → Snap K → Buf K) b Y, chain f [] b Y = yields b Y Y := by
      intro f b Y; cases b <;> rfl
    exact ⟨fun Y hY => ⟨Y, hY, fun b => hnil _ b Y, fun b => hnil _ b Y⟩,
      fun Y hY => ⟨Y, hY, fun b => hnil _ b Y, fun b => hnil _ b Y⟩⟩
  | cons t ts ih =>
    obtain ⟨ih1, ih2⟩ := ih fun t ht => h t (by simp [ht])
    have ht := h t (by simp)
    have single : ∀ (Y Z : Snap K), (∀ b, I.inverse t b Z none = yields b Z Y) → ∀ b,
        chain (fun t b Y => I.inverse t b Y none) [t] b Z = yields b Z Y := by
      intro Y Z hh b
      refine chain_cons (f := fun t b Y => I.inverse t b Y none) (hh b) ?_
      rfl
    constructor
    · intro Y hY
      obtain ⟨Y1, hY1, e1, e2⟩ := ht.forth Y c hY
      obtain ⟨Z, hZ, e3, e4⟩ := ih1 Y1 hY1
      refine ⟨Z, hZ, fun b => chain_cons (e1 b) (e3 true), fun b => ?_⟩
      rw [reverse_cons]
      exact chain_append (e4 b) (single Y Y1 e2)
    · intro Z hZ
      obtain ⟨Y1, hY1, e3, e4⟩ := ih2 Z hZ
      obtain ⟨Y, hY, e2, e1⟩ := ht.back Y1 c hY1
      refine ⟨Y, hY, fun b => chain_cons (e1 b) (e3 true), fun b => ?_⟩
      rw [reverse_cons]
      exact chain_append (e4 b) (single Y Y1 e2)

/-- C35 for `TransformerPipeline`: a nonempty pipeline of invertible transformers (built-in or not) is
invertible. -/
theorem C35_pipeline_invertible {I : TfI K S} {n : Nat} {ts : List S} (hne : ts ≠ [])
    (h : ∀ t ∈ ts, I.Invertible t n) : (pipeI I).Invertible ts n := by
  have he : ts.isEmpty = false := by simpa using hne
  have hbad : ∀ (f : S → Bool → Snap K → Buf K) (l : List S) (b : Bool) (Y : Snap K), l ≠ [] →
      (∀ t ∈ l, ∀ b, ∃ e, f t b Y = (Y, .error e)) → ∃ e, chain f l b Y = (Y, .error e) := by
    intro f l b Y hl hf
    cases l with
    | nil => exact absurd rfl hl
    | cons t l =>
      obtain ⟨e, h1⟩ := hf t (by simp) b
      exact ⟨e, by simp [chain, h1]⟩
  constructor
  · cases ts with
    | nil => exact absurd rfl hne
    | cons t ts => simp [pipeI, firstDim, (h t (by simp)).dim]
  · intro Y c hY
    obtain ⟨Z, hZ, h1, h2⟩ := (chain_invertible ts h).1 Y hY
    exact ⟨Z, hZ, fun b => by simp only [pipeI, he, Bool.false_eq_true, if_false, h1], fun b => by simp only [pipeI, he, Bool.false_eq_true, if_false, h2]⟩
  · intro Z c hZ
    obtain ⟨Y, hY, h1, h2⟩ := (chain_invertible ts h).2 Z hZ
    exact ⟨Y, hY, fun b => by simp only [pipeI, he, Bool.false_eq_true, if_false, h2], fun b => by simp only [pipeI, he, Bool.false_eq_true, if_false, h1]⟩
  · intro Y b hY
    obtain ⟨e, h1⟩ := hbad I.transform ts b Y hne fun t ht b => (h t ht).reject Y b hY
    exact ⟨e, by simp only [pipeI, he, Bool.false_eq_true, if_false, h1]⟩
  · intro Y b hY
    obtain ⟨e, h1⟩ := hbad (fun t b Y => I.inverse t b Y none) ts.reverse b Y (by simpa using hne)
      fun t ht b => (h t (by simpa using ht)).rejectInv Y b hY
    exact ⟨e, by simp only [pipeI, he, Bool.false_eq_true, if_false, h1]⟩

/-- C35 for pipelines at selected locations. -/
theorem C35_pipeline_locs [Zero K] {I : TfI K S} {n : Nat} {ts : List S} (hne : ts ≠ [])
    (h : ∀ t ∈ ts, I.Invertible t n) (h' : ∀ t ∈ ts, I.InvertibleAt t n) :
    (pipeI I).InvertibleAt ts n := by
  have he : ts.isEmpty = false := by simpa using hne
  intro Y Z c l ix hY hZ hl ht b
  simp only [pipeI, he, Bool.false_eq_true, if_false] at ht ⊢
  clear hne he
  suffices hs : ∀ (ts : List S), (∀ t ∈ ts, I.Invertible t n) → (∀ t ∈ ts, I.InvertibleAt t n) →
      ∀ Y Z : Snap K, Y.Shaped n c → (chain I.transform ts false Y).2 = .ok Z → ∀ b,
      chain (fun t b Y => I.inverse t b Y (some l)) ts.reverse b (Z.pick ix) =
        yields b (Z.pick ix) (Y.pick ix) by
    exact hs ts h h' Y Z hY (by rw [ht]; rfl) b
  clear ht h h' hY hZ Y Z b
  intro ts
  induction ts with
  | nil =>
    intro _ _ Y Z hY ht b
    simp only [chain, Except.ok.injEq] at ht
    subst ht
    cases b <;> rfl
  | cons t ts ih =>
    intro h h' Y Z hY ht b
    obtain ⟨Y1, hY1, e1, e2⟩ := (h t (by simp)).forth Y c hY
    have ht' : (chain I.transform ts false Y1).2 = .ok Z := by
      simp only [chain, e1 false, yields] at ht
      obtain ⟨Z', _, f1, _⟩ := (chain_invertible ts fun t ht => h t (by simp [ht])).1 Y1 hY1
      rw [f1 true] at ht
      rw [f1 false]
      exact ht
    rw [reverse_cons]
    refine chain_append (ih (fun t ht => h t (by simp [ht])) (fun t ht => h' t (by simp [ht])) Y1 Z hY1 ht' b)
      fun b => ?_
    refine chain_cons (f := fun t b Y => I.inverse t b Y (some l))
      (h' t (by simp) Y Y1 c l ix hY hY1 hl (e1 false) b) rfl

/-- C37 for pipelines: the chain rule. -/
theorem C37_pipeline_differentiates [Field K] {I : TfI K S} {n : Nat} {ts : List S} (hne : ts ≠ [])
    (h : ∀ t ∈ ts, I.Differentiates t n) : (pipeI I).Differentiates ts n := by
  have he : ts.isEmpty = false := by simpa using hne
  intro Y D c r hY hD
  simp only [pipeI, he, Bool.false_eq_true, if_false]
  clear he hne
  induction ts generalizing Y D with
  | nil => exact ⟨Y, D, hY, hD, fun b => by cases b <;> rfl, fun b => by cases b <;> rfl,
      fun b => by cases b <;> rfl⟩
  | cons t ts ih =>
    obtain ⟨Y1, D1, hY1, hD1, e1, e2, e3⟩ := h t (by simp) Y D c r hY hD
    obtain ⟨Z, E, hZ, hE, f1, f2, f3⟩ := ih (fun t ht => h t (by simp [ht])) Y1 D1 hY1 hD1
    exact ⟨Z, E, hZ, hE, fun b => chain_cons (e1 b) (f1 true), fun b => chain_cons (e2 b) (f2 true),
      fun b => chain_cons (e3 b) (f3 true)⟩

/-! ### Multi-variable transformers -/

/-- From the contract of each part to all parts. -/
theorem each_forth {R : S → Snap K → Snap K → Prop} {c : Option Nat} {ts : List S}
    {ns : List Nat} {Ps : List (Snap K)}
    (h : Forall₂ (fun t n => ∀ P, Snap.Shaped P n c → ∃ Q, Snap.Shaped Q n c ∧ R t P Q) ts ns)
    (hP : Forall₂ (fun P n => Snap.Shaped P n c) Ps ns) :
    ∃ Qs, Forall₂ (fun Q n => Snap.Shaped Q n c) Qs ns ∧ Each3 R ts Ps Qs := by
  induction h generalizing Ps with
  | nil => cases hP; exact ⟨[], .nil, .nil⟩
  | cons h1 _ ih =>
    cases hP with
    | cons p1 p2 =>
      obtain ⟨Q, hQ, hR⟩ := h1 _ p1
      obtain ⟨Qs, hQs, hE⟩ := ih p2
      exact ⟨Q :: Qs, .cons hQ hQs, .cons hR hE⟩

theorem forall2_ne_nil {α β : Type} {R : α → β → Prop} {l : List α} {m : List β} (h : Forall₂ R l m)
    (hl : l ≠ []) : m ≠ [] := by
  cases h with
  | nil => exact absurd rfl hl
  | cons _ _ => simp

theorem multiTransform_eq {I : TfI K S} {ts : List S} {ns : List Nat} {c : Option Nat}
    {Ps Qs : List (Snap K)} {Y Z : Snap K} {b : Bool}
    (hd : Forall₂ (fun t n => I.dim t = some n) ts ns) (hP : Joined c ns Ps Y) (hQ : Joined c ns Qs Z)
    (he : Each3 (fun t P Q => I.transform t b P = yields b P Q) ts Ps Qs) :
    multiTransform I ts b Y = yields b Y Z := by
  simp only [multiTransform, multiSplit_ok hd hP.whole.len, hP.split, eachPart_ok he]
  exact multiResult_ok hP hQ

theorem multiDdts_eq {I : TfI K S} {ts : List S} {ns : List Nat} {c : Option Nat}
    {Ps Qs : List (Snap K)} {Y Z : Snap K} {b : Bool}
    (hd : Forall₂ (fun t n => I.dim t = some n) ts ns) (hP : Joined c ns Ps Y) (hQ : Joined c ns Qs Z)
    (he : Each3 (fun t P Q => I.ddts t b P = yields b P Q) ts Ps Qs) :
    multiDdts I ts b Y = yields b Y Z := by
  simp only [multiDdts, multiSplit_ok hd hP.whole.len, hP.split, eachPart_ok he]
  exact multiResult_ok hP hQ

theorem multiInverse_eq {I : TfI K S} {ts : List S} {ns : List Nat} {c : Option Nat}
    {Ps Qs : List (Snap K)} {Y Z : Snap K} {b : Bool}
    (hd : Forall₂ (fun t n => I.dim t = some n) ts ns) (hP : Joined c ns Ps Y) (hQ : Joined c ns Qs Z)
    (he : Each3 (fun t P Q => I.inverse t b P none = yields b P Q) ts Ps Qs) :
    multiInverse I ts b Y none = yields b Y Z := by
  simp only [multiInverse, (multiDim_eq hd).1, multiSplit_ok hd hP.whole.len, hP.split, eachPart_ok he]
  exact multiResult_ok hP hQ

/-- C35 for `TransformerMulti`: a nonempty list of invertible transformers for variables of any sizes. -/
theorem C35_multi_invertible {I : TfI K S} {ts : List S} {ns : List Nat} (hne : ts ≠ [])
    (h : Forall₂ I.Invertible ts ns) : (multiI I).Invertible ts ns.sum := by
  have hd : Forall₂ (fun t n => I.dim t = some n) ts ns := h.imp fun _ _ h => h.dim
  have hn : ns ≠ [] := forall2_ne_nil h hne
  constructor
  · exact (multiDim_eq hd).1
  · intro Y c hY
    have hP := joined_split hY hn
    obtain ⟨Qs, hQs, hE⟩ := each_forth (R := fun t P Q => (∀ b, I.transform t b P = yields b P Q) ∧
      ∀ b, I.inverse t b Q none = yields b Q P) (h.imp fun t n h P hP => h.forth P c hP) hP.parts
    obtain ⟨Z, hQ⟩ := joined_of_parts hQs hn
    exact ⟨Z, hQ.whole, fun b => multiTransform_eq hd hP hQ (hE.mono fun t P Q hh => hh.1 b),
      fun b => multiInverse_eq hd hQ hP (hE.swap.mono fun t P Q hh => hh.2 b)⟩
  · intro Y c hY
    have hP := joined_split hY hn
    obtain ⟨Qs, hQs, hE⟩ := each_forth (R := fun t P Q => (∀ b, I.inverse t b P none = yields b P Q) ∧
      ∀ b, I.transform t b Q = yields b Q P) (h.imp fun t n h P hP => h.back P c hP) hP.parts
    obtain ⟨Z, hQ⟩ := joined_of_parts hQs hn
    exact ⟨Z, hQ.whole, fun b => multiInverse_eq hd hP hQ (hE.mono fun t P Q hh => hh.1 b),
      fun b => multiTransform_eq hd hQ hP (hE.swap.mono fun t P Q hh => hh.2 b)⟩
  · intro Y b hY
    exact ⟨.dimensionality, by simp only [multiI, multiTransform, multiSplit_bad hd hY]⟩
  · intro Y b hY
    exact ⟨.dimensionality, by
      simp only [multiI, multiInverse, (multiDim_eq hd).1, multiSplit_bad hd hY]⟩

/-! #### Derivatives of parts -/

theorem flatten_zipWith {α : Type} (f : α → α → α) (ps ds : List (List α))
    (h : ps.map length = ds.map length) :
    zipWith f ps.flatten ds.flatten = (zipWith (zipWith f) ps ds).flatten := by
  induction ps generalizing ds with
  | nil => simp
  | cons p ps ih =>
    cases ds with
    | nil => simp
    | cons d ds =>
      simp only [map_cons, cons.injEq] at h
      simp only [flatten_cons, zipWith_cons_cons]
      rw [zipWith_append h.1, ih ds h.2]

theorem joined_axpy [Field K] {c : Option Nat} {ns : List Nat} {Ps Ds : List (Snap K)} {Y D : Snap K}
    (h : K) (hP : Joined c ns Ps Y) (hD : Joined c ns Ds D) (hn : ns ≠ []) :
    Joined c ns (zipWith (Snap.axpy h) Ps Ds) (Y.axpy h D) := by
  have hs : ∀ {ns : List Nat} {Ps Ds : List (Snap K)}, Forall₂ (fun P n => Snap.Shaped P n c) Ps ns →
      Forall₂ (fun P n => Snap.Shaped P n c) Ds ns →
      Forall₂ (fun P n => Snap.Shaped P n c) (zipWith (Snap.axpy h) Ps Ds) ns := by
    intro ns Ps Ds h1
    induction h1 generalizing Ds with
    | nil => intro h2; cases h2; exact .nil
    | cons a _ ih =>
      intro h2
      cases h2 with
      | cons b h2 => exact .cons (a.axpy h b) (ih h2)
  obtain ⟨W, hW⟩ := joined_of_parts (hs hP.parts hD.parts) hn
  suffices W = Y.axpy h D by rw [← this]; exact hW
  have hc := hW.concat
  have c1 := hP.concat
  have c2 := hD.concat
  rcases shaped_parts_cases hP.parts with ⟨rfl, ps, rfl, hps⟩ | ⟨k, rfl, ps, rfl, hps, hw⟩
  · rcases shaped_parts_cases hD.parts with ⟨_, ds, rfl, hds⟩ | ⟨k, hk, _⟩
    · have hn1 : ps ≠ [] := by rintro rfl; exact hn hps.symm
      have hn2 : ds ≠ [] := by rintro rfl; exact hn hds.symm
      rw [concat_vec _ hn1] at c1
      rw [concat_vec _ hn2] at c2
      simp only [Except.ok.injEq] at c1 c2
      subst c1 c2
      have e : zipWith (Snap.axpy h) (ps.map Snap.vec) (ds.map Snap.vec) =
          (zipWith (zipWith fun x d => x + h * d) ps ds).map Snap.vec := by
        rw [zipWith_map, map_zipWith]
        rfl
      rw [e, concat_vec] at hc
      · simp only [Except.ok.injEq] at hc
        rw [← hc]
        simp only [Snap.axpy]
        rw [flatten_zipWith _ _ _ (hps.trans hds.symm)]
      · cases ps with
        | nil => exact absurd rfl hn1
        | cons => cases ds with
          | nil => exact absurd rfl hn2
          | cons => simp
    · cases hk
  · rcases shaped_parts_cases hD.parts with ⟨hk, _⟩ | ⟨k', hk, ds, rfl, hds, hw'⟩
    · cases hk
    · simp only [Option.some.injEq] at hk
      subst hk
      have hn1 : ps ≠ [] := by rintro rfl; exact hn hps.symm
      have hn2 : ds ≠ [] := by rintro rfl; exact hn hds.symm
      rw [concat_mat _ _ hn1] at c1
      rw [concat_mat _ _ hn2] at c2
      simp only [Except.ok.injEq] at c1 c2
      subst c1 c2
      have e : zipWith (Snap.axpy h) (ps.map (Snap.mat k)) (ds.map (Snap.mat k)) =
          (zipWith (zipWith (zipWith fun x d => x + h * d)) ps ds).map (Snap.mat k) := by
        rw [zipWith_map, map_zipWith]
        rfl
      rw [e, concat_mat] at hc
      · simp only [Except.ok.injEq] at hc
        rw [← hc]
        simp only [Snap.axpy]
        rw [flatten_zipWith _ _ _ (hps.trans hds.symm)]
      · cases ps with
        | nil => exact absurd rfl hn1
        | cons => cases ds with
          | nil => exact absurd rfl hn2
          | cons => simp

/-- C37 for multi-variable transformers. -/
theorem C37_multi_differentiates [Field K] {I : TfI K S} {ts : List S} {ns : List Nat} (hne : ts ≠ [])
    (hd : Forall₂ (fun t n => I.dim t = some n) ts ns) (h : Forall₂ I.Differentiates ts ns) :
    (multiI I).Differentiates ts ns.sum := by
  intro Y D c r hY hD
  have hn : ns ≠ [] := forall2_ne_nil h hne
  have hP := joined_split hY hn
  have hE := joined_split hD hn
  have key : ∀ {ts : List S} {ns : List Nat} {Ps Ds : List (Snap K)}, Forall₂ I.Differentiates ts ns →
      Forall₂ (fun P n => Snap.Shaped P n c) Ps ns → Forall₂ (fun P n => Snap.Shaped P n c) Ds ns →
      ∃ Qs Es, Forall₂ (fun P n => Snap.Shaped P n c) Qs ns ∧
        Forall₂ (fun P n => Snap.Shaped P n c) Es ns ∧ ∀ b,
        Each3 (fun t P Q => I.transform t b P = yields b P Q) ts Ps Qs ∧
        Each3 (fun t P Q => I.ddts t b P = yields b P Q) ts Ds Es ∧
        Each3 (fun t P Q => I.transform t b P = yields b P Q) ts (zipWith (Snap.axpy r) Ps Ds)
          (zipWith (Snap.axpy r) Qs Es) := by
    intro ts ns Ps Ds h1
    induction h1 generalizing Ps Ds with
    | nil =>
      intro hp hd
      cases hp
      cases hd
      exact ⟨[], [], .nil, .nil, fun b => ⟨.nil, .nil, .nil⟩⟩
    | cons ht _ ih =>
      intro hp hd
      cases hp with
      | cons p1 p2 =>
        cases hd with
        | cons d1 d2 =>
          obtain ⟨Q, E, hQ, hE, e1, e2, e3⟩ := ht _ _ c r p1 d1
          obtain ⟨Qs, Es, hQs, hEs, f⟩ := ih p2 d2
          exact ⟨Q :: Qs, E :: Es, .cons hQ hQs, .cons hE hEs, fun b =>
            ⟨.cons (e1 b) (f b).1, .cons (e2 b) (f b).2.1, .cons (e3 b) (f b).2.2⟩⟩
  obtain ⟨Qs, Es, hQs, hEs, f⟩ := key h hP.parts hE.parts
  obtain ⟨Z, hQ⟩ := joined_of_parts hQs hn
  obtain ⟨E, hF⟩ := joined_of_parts hEs hn
  exact ⟨Z, E, hQ.whole, hF.whole, fun b => multiTransform_eq hd hP hQ (f b).1,
    fun b => multiDdts_eq hd hE hF (f b).2.1,
    fun b => multiTransform_eq hd (joined_axpy r hP hE hn) (joined_axpy r hQ hF hn) (f b).2.2⟩

/-! #### Locations in multi-variable states -/

/-- The positions `ix` within each of `nq` variables of size `nx`. -/
def eachVariable (nq nx : Nat) (ix : List Nat) : List Nat :=
  (range nq).flatMap fun p => ix.map (p * nx + ·)

theorem getD_flatten {α : Type} (d : α) (nx : Nat) (ps : List (List α)) (h : ∀ p ∈ ps, p.length = nx)
    (p i : Nat) (hi : i < nx) : ps.flatten.getD (p * nx + i) d = (ps.getD p []).getD i d := by
  induction ps generalizing p with
  | nil => simp
  | cons q ps ih =>
    have hq := h q (by simp)
    cases p with
    | zero =>
      simp only [flatten_cons, Nat.zero_mul, Nat.zero_add, getD_cons_zero]
      simp [getD_eq_getElem?_getD, getElem?_append_left (show i < q.length by omega)]
    | succ p =>
      have e : (p + 1) * nx + i = q.length + (p * nx + i) := by rw [hq]; ring
      rw [flatten_cons, e, getD_cons_succ, ← ih (fun p hp => h p (by simp [hp])) p]
      rw [getD_eq_getElem?_getD, getD_eq_getElem?_getD, getElem?_append_right (by omega),
        Nat.add_sub_cancel_left]

theorem eachVariable_map {α : Type} (d : α) (nx : Nat) (ps : List (List α)) (h : ∀ p ∈ ps, p.length = nx)
    (ix : List Nat) (hix : ∀ i ∈ ix, i < nx) :
    (eachVariable ps.length nx ix).map (fun i => ps.flatten.getD i d) =
      (ps.map fun p => ix.map fun i => p.getD i d).flatten := by
  rw [eachVariable, map_flatMap, flatMap_def]
  congr 1
  apply ext_getElem (by simp)
  intro j h1 h2
  simp only [getElem_map, getElem_range, map_map]
  apply map_congr_left
  intro i hi
  have hj : j < ps.length := by simpa using h1
  rw [Function.comp_apply, getD_flatten d nx ps h j i (hix i hi)]
  simp [getD_eq_getElem?_getD, hj]

theorem joined_pick [Zero K] {c : Option Nat} {nq nx : Nat} {Ps : List (Snap K)} {Y : Snap K}
    (hP : Joined c (replicate nq nx) Ps Y) (hq : nq ≠ 0) (ix : List Nat) (hix : ∀ i ∈ ix, i < nx) :
    Joined c (replicate nq ix.length) (Ps.map (Snap.pick ix)) (Y.pick (eachVariable nq nx ix)) := by
  have hlen : Ps.length = nq := by simpa using hP.parts.length_eq
  have hparts : Forall₂ (fun P n => Snap.Shaped P n c) (Ps.map (Snap.pick ix)) (replicate nq ix.length) := by
    have h0 : ∀ P ∈ Ps, Snap.Shaped P nx c := by
      have := hP.parts
      intro P hPm
      obtain ⟨i, hi, rfl⟩ := mem_iff_getElem.1 hPm
      have := (forall₂_iff_get.1 this).2 i hi (by simpa [← hlen] using hi)
      simpa using this
    rw [forall₂_iff_get]
    refine ⟨by simp [hlen], fun i h1 h2 => ?_⟩
    simp only [length_map] at h1
    have hs := h0 _ (getElem_mem h1)
    simp only [get_eq_getElem, getElem_map, getElem_replicate]
    generalize Ps[i] = P at hs
    cases P with
    | vec xs => exact ⟨trivial, Snap.len_pick _ _, hs.cols⟩
    | mat k rows =>
      refine ⟨?_, Snap.len_pick _ _, hs.cols⟩
      intro row hr
      obtain ⟨j, hj, rfl⟩ := mem_map.1 hr
      have hl : rows.length = nx := hs.len
      have hjl : j < rows.length := by rw [hl]; exact hix j hj
      rw [getD_eq_getElem?_getD, getElem?_eq_getElem hjl, Option.getD_some]
      exact hs.wf _ (getElem_mem hjl)
  obtain ⟨W, hW⟩ := joined_of_parts hparts (by simpa using hq)
  suffices W = Y.pick (eachVariable nq nx ix) by rw [← this]; exact hW
  have hc := hW.concat
  have c1 := hP.concat
  rcases shaped_parts_cases hP.parts with ⟨rfl, ps, rfl, hps⟩ | ⟨k, rfl, ps, rfl, hps, hw⟩
  · have hn1 : ps ≠ [] := by rintro rfl; simp at hlen; omega
    have hall : ∀ p ∈ ps, p.length = nx := fun p hp => by
      have : p.length ∈ ps.map length := mem_map_of_mem hp
      rw [hps] at this
      exact eq_of_mem_replicate this
    rw [concat_vec _ hn1] at c1
    simp only [Except.ok.injEq] at c1
    subst c1
    have e : (ps.map Snap.vec).map (Snap.pick ix) =
        (ps.map fun p => ix.map fun i => p.getD i 0).map Snap.vec := by
      rw [map_map, map_map]; rfl
    rw [e, concat_vec _ (by simpa using hn1)] at hc
    simp only [Except.ok.injEq] at hc
    rw [← hc, Snap.pick, ← eachVariable_map 0 nx ps hall ix hix]
    simp only [length_map] at hlen
    rw [hlen]
  · have hn1 : ps ≠ [] := by rintro rfl; simp at hlen; omega
    have hall : ∀ p ∈ ps, p.length = nx := fun p hp => by
      have : p.length ∈ ps.map length := mem_map_of_mem hp
      rw [hps] at this
      exact eq_of_mem_replicate this
    rw [concat_mat _ _ hn1] at c1
    simp only [Except.ok.injEq] at c1
    subst c1
    have e : (ps.map (Snap.mat k)).map (Snap.pick ix) =
        (ps.map fun p => ix.map fun i => p.getD i []).map (Snap.mat k) := by
      rw [map_map, map_map]; rfl
    rw [e, concat_mat _ _ (by simpa using hn1)] at hc
    simp only [Except.ok.injEq] at hc
    rw [← hc, Snap.pick, ← eachVariable_map [] nx ps hall ix hix]
    simp only [length_map] at hlen
    rw [hlen]

theorem forall2_replicate {α β : Type} {R : α → β → Prop} {l : List α} {b : β} (h : ∀ a ∈ l, R a b) :
    Forall₂ R l (replicate l.length b) := by
  induction l with
  | nil => exact .nil
  | cons a l ih => exact .cons (h a (by simp)) (ih fun x hx => h x (by simp [hx]))

/-- C35 for multi-variable transformers at selected locations: with variables of equal size `nx`, the
inverse of the entries at the locations of every variable gives the original entries there. -/
theorem C35_multi_locs [Zero K] {I : TfI K S} {ts : List S} {nx : Nat} (hne : ts ≠ [])
    (h : ∀ t ∈ ts, I.Invertible t nx) (h' : ∀ t ∈ ts, I.InvertibleAt t nx) (Y Z : Snap K) (c : Option Nat)
    (l : Locs) (ix : List Nat) (hY : Y.Shaped (ts.length * nx) c) (hl : locate nx l = .ok ix)
    (ht : (multiI I).transform ts false Y = yields false Y Z) (b : Bool) :
    (multiI I).inverse ts b (Z.pick (eachVariable ts.length nx ix)) (some l) =
      yields b (Z.pick (eachVariable ts.length nx ix)) (Y.pick (eachVariable ts.length nx ix)) := by
  obtain ⟨_, _, _, _, hix⟩ := locate_eq hl
  have hq : ts.length ≠ 0 := by simpa using hne
  have hinv : Forall₂ I.Invertible ts (replicate ts.length nx) := forall2_replicate h
  have hd : Forall₂ (fun t n => I.dim t = some n) ts (replicate ts.length nx) := hinv.imp fun _ _ h => h.dim
  have hn : replicate ts.length nx ≠ [] := by simpa using hne
  have hP := joined_split (ns := replicate ts.length nx) (Y := Y) (c := c) (by simpa using hY) hn
  obtain ⟨Qs, hQs, hE⟩ := each_forth
    (R := fun t P Q => ∃ n, n = nx ∧ P.Shaped n c ∧ Q.Shaped n c ∧ t ∈ ts ∧ ∀ b, I.transform t b P = yields b P Q)
    (ts := ts) (ns := replicate ts.length nx) (c := c)
    (forall2_replicate fun t ht P hP => by
      obtain ⟨Q, hQ, h1, _⟩ := (h t ht).forth P c hP
      exact ⟨Q, hQ, nx, rfl, hP, hQ, ht, h1⟩) hP.parts
  obtain ⟨Z', hQ⟩ := joined_of_parts hQs hn
  have hZ : Z' = Z := by
    have := multiTransform_eq (b := false) hd hP hQ (hE.mono fun t P Q hh => by
      obtain ⟨_, _, _, _, _, e⟩ := hh; exact e false)
    exact yields_inj (this.symm.trans ht)
  subst hZ
  have hYp := joined_pick hP hq ix hix
  have hZp := joined_pick hQ hq ix hix
  have hdims : ¬ (1 < (ts.map I.dim).dedup.length) := by
    rw [(multiDim_eq hd).2.2, map_replicate]
    have : (replicate ts.length (some nx)).dedup = [some nx] := List.replicate_dedup hq
    rw [this]
    simp
  have hlen : (Z'.pick (eachVariable ts.length nx ix)).len = ts.length * ix.length := by
    have := hZp.whole.len
    simpa using this
  have hsplit : splitEven ts.length (Z'.pick (eachVariable ts.length nx ix)) = .ok (Qs.map (Snap.pick ix)) := by
    rw [splitEven, hlen, if_pos (Nat.mul_mod_right _ _), Nat.mul_div_cancel_left _ (by omega), hZp.split]
  simp only [multiI, multiInverse, (multiDim_eq hd).1, if_neg hdims, hsplit]
  have hEach : Each3 (fun t P Q => I.inverse t b P (some l) = yields b P Q) ts (Qs.map (Snap.pick ix))
      ((splitSizes (replicate ts.length nx) 0 Y).map (Snap.pick ix)) := by
    have : ∀ {us : List S} {Ps Qs : List (Snap K)},
        Each3 (fun t P Q => ∃ n, n = nx ∧ P.Shaped n c ∧ Q.Shaped n c ∧ t ∈ ts ∧
          ∀ b, I.transform t b P = yields b P Q) us Ps Qs →
        Each3 (fun t P Q => I.inverse t b P (some l) = yields b P Q) us (Qs.map (Snap.pick ix))
          (Ps.map (Snap.pick ix)) := by
      intro us Ps Qs e
      induction e with
      | nil => exact .nil
      | cons hh _ ih =>
        obtain ⟨n, rfl, hp, hq, hm, e⟩ := hh
        exact .cons (h' _ hm _ _ c l ix hp hq hl (e false) b) ih
    exact this hE
  rw [eachPart_ok hEach]
  exact multiResult_ok hZp hYp

end Opinf
