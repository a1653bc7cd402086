import Verif.Props.VerifyLimits
import Verif.Props.Rom

/-! # C105: the `inplace` flag of transformers

Specification: `FlagSays g Y` for a call `g` on the array `Y`, `TfI.FlagOnly`. -/

namespace Opinf

open List

variable {K S T : Type}

/-- The call `g inplace` on the array `Y`: without `inplace` the array stays as it is (also if the call raises);
the flag changes neither the returned values nor the exception; a call with `inplace` that returns leaves the
returned values in the array. -/
structure FlagSays (g : Bool → Buf K) (Y : Snap K) : Prop where
  keeps : (g false).1 = Y
  same : (g true).2 = (g false).2
  fills : ∀ Z, (g true).2 = .ok Z → (g true).1 = Z

/-- The four methods of a transformer with an `inplace` flag obey it, whatever the state of the transformer and
the argument, and `fit_transform` learns the same with and without the flag. -/
structure TfI.FlagOnly (I : TfI K S) : Prop where
  transform : ∀ s Y, FlagSays (fun b => I.transform s b Y) Y
  ddts : ∀ s Y, FlagSays (fun b => I.ddts s b Y) Y
  inverse : ∀ s Y l, FlagSays (fun b => I.inverse s b Y l) Y
  fitTransform : ∀ s Y, FlagSays (fun b => (I.fitTransform s b Y).2) Y
  learns : ∀ s Y, (I.fitTransform s true Y).1 = (I.fitTransform s false Y).1

/-! ### Single transformers -/

theorem flagSays_onBuffer (f : Snap K → Except Err (Snap K)) (Y : Snap K) : FlagSays (fun b => onBuffer b f Y) Y := by
  refine ⟨onBuffer_keeps f Y, ?_, ?_⟩
  · simp only [onBuffer]
    cases f Y <;> rfl
  · intro Z h
    simp only [onBuffer] at h ⊢
    cases hf : f Y with
    | error e => rw [hf] at h; cases h
    | ok W =>
      rw [hf] at h
      exact Except.ok.inj h

theorem flagSays_error (Y : Snap K) (e : Err) : FlagSays (fun _ => ((Y, .error e) : Buf K)) Y :=
  ⟨rfl, rfl, fun _ h => by cases h⟩

theorem flagOnly_sum {I : TfI K S} {J : TfI K T} (hI : I.FlagOnly) (hJ : J.FlagOnly) : (sumI I J).FlagOnly where
  transform s Y := by
    cases s with
    | inl s => exact hI.transform s Y
    | inr s => exact hJ.transform s Y
  ddts s Y := by
    cases s with
    | inl s => exact hI.ddts s Y
    | inr s => exact hJ.ddts s Y
  inverse s Y l := by
    cases s with
    | inl s => exact hI.inverse s Y l
    | inr s => exact hJ.inverse s Y l
  fitTransform s Y := by
    cases s with
    | inl s => exact hI.fitTransform s Y
    | inr s => exact hJ.fitTransform s Y
  learns s Y := by
    cases s with
    | inl s => exact congrArg Sum.inl (hI.learns s Y)
    | inr s => exact congrArg Sum.inr (hJ.learns s Y)

section Builtin

variable [Field K] [LinearOrder K]

theorem flagOnly_shift : (shiftI (K := K)).FlagOnly where
  transform _ _ := flagSays_onBuffer _ _
  ddts _ Y := flagSays_onBuffer .ok Y
  inverse s Y l := flagSays_onBuffer (fun Y => s.inverse Y l) Y
  fitTransform _ _ := flagSays_onBuffer _ _
  learns _ _ := rfl

theorem flagOnly_scale : (scaleI (K := K)).FlagOnly where
  transform _ _ := flagSays_onBuffer _ _
  ddts _ _ := flagSays_onBuffer _ _
  inverse s Y l := flagSays_onBuffer (fun Y => s.inverse Y l) Y
  fitTransform s Y := by
    simp only [scaleI]
    obtain ⟨s', r⟩ := s.fit Y
    cases r with
    | error e => exact flagSays_error Y e
    | ok u => exact flagSays_onBuffer _ _
  learns s Y := by
    simp only [scaleI]
    obtain ⟨s', r⟩ := s.fit Y
    cases r <;> rfl

theorem flagOnly_sst (sq : K → K) : (sstI sq).FlagOnly where
  transform _ _ := flagSays_onBuffer _ _
  ddts _ _ := flagSays_onBuffer _ _
  inverse s Y l := flagSays_onBuffer (fun Y => s.inverse Y l) Y
  fitTransform s Y := flagSays_onBuffer (fun Y => (s.fitTransform sq Y).2) Y
  learns _ _ := rfl

omit [Field K] [LinearOrder K] in
theorem flagOnly_null : (nullI (K := K)).FlagOnly where
  transform s Y := flagSays_onBuffer (fun Y => do checkShape s.n Y; return Y) Y
  ddts s Y := flagSays_onBuffer (fun Y => do checkShape s.n Y; return Y) Y
  inverse s Y l := flagSays_onBuffer (fun Y => s.inverse Y l) Y
  fitTransform _ Y := flagSays_onBuffer .ok Y
  learns _ _ := rfl

/-- C105: the built-in transformers for a single variable obey the flag. -/
theorem C105_builtin (sq : K → K) : (basicI sq).FlagOnly :=
  flagOnly_sum flagOnly_shift (flagOnly_sum flagOnly_scale (flagOnly_sum (flagOnly_sst sq) flagOnly_null))

/-- C105: a built-in transformer for a single variable that raises leaves its argument as it is, also with
`inplace=True`. -/
theorem C105_builtin_failed (sq : K → K) (s : Basic K) (Y : Snap K) (b : Bool) (e : Err) :
    (((basicI sq).transform s b Y).2 = .error e → ((basicI sq).transform s b Y).1 = Y) ∧
    (((basicI sq).ddts s b Y).2 = .error e → ((basicI sq).ddts s b Y).1 = Y) ∧
    (∀ l, ((basicI sq).inverse s b Y l).2 = .error e → ((basicI sq).inverse s b Y l).1 = Y) ∧
    (((basicI sq).fitTransform s b Y).2.2 = .error e → ((basicI sq).fitTransform s b Y).2.1 = Y) := by
  have key : ∀ f : Snap K → Except Err (Snap K), (onBuffer b f Y).2 = .error e → (onBuffer b f Y).1 = Y := by
    intro f h
    simp only [onBuffer] at h ⊢
    cases hf : f Y with
    | error e => rfl
    | ok W => rw [hf] at h; cases h
  rcases s with s | s | s | s
  · exact ⟨key _, key _, fun _ => key _, key _⟩
  · refine ⟨key _, key _, fun _ => key _, ?_⟩
    simp only [basicI, sumI, scaleI]
    obtain ⟨s', r⟩ := s.fit Y
    cases r with
    | error e => exact fun _ => rfl
    | ok u => exact key _
  · exact ⟨key _, key _, fun _ => key _, key _⟩
  · exact ⟨key _, key _, fun _ => key _, key _⟩

end Builtin

/-! ### Pipelines -/

theorem flagSays_chain {f : S → Bool → Snap K → Buf K} (hf : ∀ s Y, FlagSays (fun b => f s b Y) Y) (ts : List S)
    (Y : Snap K) : FlagSays (fun b => chain f ts b Y) Y := by
  induction ts generalizing Y with
  | nil => exact ⟨rfl, rfl, fun Z h => Except.ok.inj h⟩
  | cons t ts ih =>
    have h := hf t Y
    have h1 := h.keeps
    have h2 := h.same
    have h3 := h.fills
    try simp only at h1 h2 h3
    constructor
    · simp only [chain]
      rcases hr : f t false Y with ⟨Y', r⟩
      rw [hr] at h1
      cases r <;> simpa using h1
    · simp only [chain]
      rcases hr : f t false Y with ⟨Y', r⟩
      rcases hr2 : f t true Y with ⟨Y2, r2⟩
      rw [hr, hr2] at h2
      try simp only at h2
      subst h2
      cases r2 <;> rfl
    · intro Z hZ
      simp only [chain] at hZ ⊢
      rcases hr2 : f t true Y with ⟨Y2, r2⟩
      rw [hr2] at hZ
      cases r2 with
      | error e => cases hZ
      | ok W => exact (ih W).fills Z hZ

theorem flagSays_chainFit {f : S → Bool → Snap K → S × Buf K} (hf : ∀ s Y, FlagSays (fun b => (f s b Y).2) Y)
    (hl : ∀ s Y, (f s true Y).1 = (f s false Y).1) (ts : List S) (Y : Snap K) :
    FlagSays (fun b => (chainFit f ts b Y).2) Y ∧ (chainFit f ts true Y).1 = (chainFit f ts false Y).1 := by
  induction ts generalizing Y with
  | nil => exact ⟨⟨rfl, rfl, fun Z h => Except.ok.inj h⟩, rfl⟩
  | cons t ts ih =>
    have h := hf t Y
    have h1 := h.keeps
    have h2 := h.same
    have h4 := hl t Y
    try simp only at h1 h2
    rcases hr : f t false Y with ⟨t', Y', r⟩
    rcases hr2 : f t true Y with ⟨t2, Y2, r2⟩
    rw [hr] at h1
    rw [hr, hr2] at h2 h4
    try simp only at h1 h2 h4
    subst h1 h2 h4
    refine ⟨⟨?_, ?_, ?_⟩, ?_⟩
    · simp only [chainFit, hr]
      cases r2 <;> simp
    · simp only [chainFit, hr, hr2]
      cases r2 <;> rfl
    · intro Z hZ
      simp only [chainFit, hr2] at hZ ⊢
      cases r2 with
      | error e => cases hZ
      | ok W => exact (ih W).1.fills Z hZ
    · simp only [chainFit, hr, hr2]
      cases r2 <;> rfl

/-- C105: a pipeline of transformers that obey the flag obeys it. -/
theorem C105_pipeline {I : TfI K S} (hI : I.FlagOnly) : (pipeI I).FlagOnly where
  transform ts Y := by
    cases ts with
    | nil => exact flagSays_error Y .index
    | cons t ts => exact flagSays_chain hI.transform (t :: ts) Y
  ddts ts Y := by
    cases ts with
    | nil => exact flagSays_error Y .index
    | cons t ts => exact flagSays_chain hI.ddts (t :: ts) Y
  inverse ts Y l := by
    cases ts with
    | nil => exact flagSays_error Y .index
    | cons t ts => exact flagSays_chain (fun s Y => hI.inverse s Y l) (t :: ts).reverse Y
  fitTransform ts Y := by
    cases ts with
    | nil => exact flagSays_error Y .index
    | cons t ts => exact (flagSays_chainFit hI.fitTransform hI.learns (t :: ts) Y).1
  learns ts Y := by
    cases ts with
    | nil => rfl
    | cons t ts => exact (flagSays_chainFit hI.fitTransform hI.learns (t :: ts) Y).2

/-! ### Several variables -/

theorem rejoin_splitSizes (ns : List Nat) (Y : Snap K) (h : Y.len = ns.sum) : rejoin Y (splitSizes ns 0 Y) = Y := by
  cases ns with
  | nil => rfl
  | cons n ns =>
    cases Y with
    | vec xs =>
      have := cutAt_flatten (n :: ns) xs h
      rw [rejoin, splitSizes_vec, drop_zero, concat_vec _ (by simp [cutAt]), this]
    | mat k rows =>
      have := cutAt_flatten (n :: ns) rows h
      rw [rejoin, splitSizes_mat, drop_zero, concat_mat k _ (by simp [cutAt]), this]

theorem eachPart_keeps {f : S → Snap K → Buf K} (hf : ∀ s Y, (f s Y).1 = Y) (ts : List S) (Ys : List (Snap K)) :
    (eachPart f ts Ys).1 = Ys := by
  induction ts generalizing Ys with
  | nil => cases Ys <;> rfl
  | cons t ts ih =>
    cases Ys with
    | nil => rfl
    | cons Y Ys =>
      have h := hf t Y
      have ih := ih Ys
      simp only [eachPart]
      generalize f t Y = p at h ⊢
      obtain ⟨Y', r⟩ := p
      simp only at h
      subst h
      cases r with
      | error e => rfl
      | ok Z =>
        rcases hq : eachPart f ts Ys with ⟨Ys', q⟩
        rw [hq] at ih
        try simp only at ih
        subst ih
        cases q <;> rfl

theorem eachPart_same {f g : S → Snap K → Buf K} (h : ∀ s Y, (f s Y).2 = (g s Y).2) (ts : List S)
    (Ys : List (Snap K)) : (eachPart f ts Ys).2 = (eachPart g ts Ys).2 := by
  induction ts generalizing Ys with
  | nil => cases Ys <;> rfl
  | cons t ts ih =>
    cases Ys with
    | nil => rfl
    | cons Y Ys =>
      have h := h t Y
      have ih := ih Ys
      simp only [eachPart]
      generalize f t Y = p at h ⊢
      generalize g t Y = p' at h ⊢
      obtain ⟨Y1, r1⟩ := p
      obtain ⟨Y2, r2⟩ := p'
      simp only at h
      subst h
      cases r1 with
      | error e => rfl
      | ok Z =>
        generalize eachPart f ts Ys = p at ih ⊢
        generalize eachPart g ts Ys = p' at ih ⊢
        obtain ⟨Z1, q1⟩ := p
        obtain ⟨Z2, q2⟩ := p'
        simp only at ih
        subst ih
        cases q1 <;> rfl

theorem eachPart_fills {f : S → Snap K → Buf K} (h : ∀ s Y Z, (f s Y).2 = .ok Z → (f s Y).1 = Z) {ts : List S}
    {Ys Zs : List (Snap K)} (hl : Ys.length = ts.length) (hZ : (eachPart f ts Ys).2 = .ok Zs) :
    (eachPart f ts Ys).1 = Zs := by
  induction ts generalizing Ys Zs with
  | nil =>
    cases Ys with
    | nil => exact Except.ok.inj hZ
    | cons Y Ys => simp at hl
  | cons t ts ih =>
    cases Ys with
    | nil => simp at hl
    | cons Y Ys =>
      have h := h t Y
      simp only [eachPart] at hZ ⊢
      generalize f t Y = p at h hZ ⊢
      obtain ⟨Y1, r1⟩ := p
      cases r1 with
      | error e => cases hZ
      | ok Z =>
        have h := h Z rfl
        have ih := @ih Ys
        try simp only at h
        subst h
        generalize eachPart f ts Ys = p at ih hZ ⊢
        obtain ⟨Z1, q1⟩ := p
        cases q1 with
        | error e => cases hZ
        | ok Ws =>
          have := @ih Ws (by simpa using hl) rfl
          try simp only at this
          subst this
          exact Except.ok.inj hZ

/-- The result for several variables, from the results for the parts. -/
theorem flagSays_multiResult {Y : Snap K} {g : Bool → List (Snap K) × Except Err (List (Snap K))}
    (h1 : rejoin Y (g false).1 = Y) (h2 : (g true).2 = (g false).2)
    (h3 : ∀ Zs, (g true).2 = .ok Zs → (g true).1 = Zs) : FlagSays (fun b => multiResult b Y (g b)) Y := by
  rcases hP : g false with ⟨P, r⟩
  rcases hQ : g true with ⟨Q, q⟩
  rw [hP] at h1
  rw [hP, hQ] at h2
  rw [hQ] at h3
  try simp only at h1 h2 h3
  subst h2
  constructor
  · simp only [multiResult, hP, h1]
    cases q with
    | error e => rfl
    | ok Zs =>
      simp only
      cases Snap.concat Zs <;> rfl
  · simp only [multiResult, hP, hQ]
    cases q with
    | error e => rfl
    | ok Zs =>
      have := h3 Zs rfl
      subst this
      simp only [rejoin]
      cases Snap.concat Q <;> rfl
  · intro Z hZ
    simp only [multiResult, hQ] at hZ ⊢
    cases q with
    | error e => cases hZ
    | ok Zs =>
      simp only at hZ ⊢
      cases hc : Snap.concat Zs with
      | error e => rw [hc] at hZ; cases hZ
      | ok W =>
        rw [hc] at hZ
        exact Except.ok.inj hZ

theorem length_splitSizes (ns : List Nat) (a : Nat) (Y : Snap K) : (splitSizes ns a Y).length = ns.length := by
  induction ns generalizing a with
  | nil => rfl
  | cons n ns ih => simp [splitSizes, ih]

theorem mapM_some_map {α : Type} {f : α → Option Nat} {l : List α} {ns : List Nat} (h : l.mapM f = some ns) :
    (l.map f).map (·.getD 0) = ns := by
  induction l generalizing ns with
  | nil => simpa using h
  | cons x l ih =>
    simp only [mapM_cons, Option.bind_eq_bind, Option.bind_eq_some_iff, Option.pure_def, Option.some.injEq] at h
    obtain ⟨n, hn, ms, hms, rfl⟩ := h
    have := ih hms
    simp only [map_map] at this
    simp [hn, this]

theorem multiSplit_parts {I : TfI K S} {ts : List S} {Y : Snap K} {Ps : List (Snap K)}
    (h : multiSplit I ts Y = .ok Ps) : rejoin Y Ps = Y ∧ Ps.length = ts.length := by
  simp only [multiSplit, multiCheck] at h
  cases hd : multiDim I ts with
  | none => rw [hd] at h; cases h
  | some n =>
    rw [hd] at h
    try simp only at h
    split at h
    · rename_i hn
      cases h
      simp only [multiDim, Option.map_eq_some_iff] at hd
      obtain ⟨ns, hns, rfl⟩ := hd
      rw [mapM_some_map hns]
      refine ⟨rejoin_splitSizes ns Y hn, ?_⟩
      rw [length_splitSizes, ← mapM_some_map hns]
      simp
    · cases h

theorem flagSays_parts {f : S → Bool → Snap K → Buf K} (hf : ∀ s Y, FlagSays (fun b => f s b Y) Y) {ts : List S}
    {Y : Snap K} {Ps : List (Snap K)} (h1 : rejoin Y Ps = Y) (h2 : Ps.length = ts.length) :
    FlagSays (fun b => multiResult b Y (eachPart (fun t Y => f t b Y) ts Ps)) Y := by
  refine flagSays_multiResult (g := fun b => eachPart (fun t Y => f t b Y) ts Ps) ?_ ?_ ?_
  · rw [eachPart_keeps fun s Y => (hf s Y).keeps]
    exact h1
  · exact eachPart_same (fun s Y => (hf s Y).same) ts Ps
  · intro Zs hZ
    exact eachPart_fills (fun s Y => (hf s Y).fills) h2 hZ

theorem eachPartFit_snd (f : S → Snap K → S × Buf K) (ts : List S) (Ys : List (Snap K)) :
    (eachPartFit f ts Ys).2 = eachPart (fun t Y => (f t Y).2) ts Ys := by
  induction ts generalizing Ys with
  | nil => cases Ys <;> rfl
  | cons t ts ih =>
    cases Ys with
    | nil => rfl
    | cons Y Ys =>
      have ih := ih Ys
      simp only [eachPart, eachPartFit]
      obtain ⟨t', Y', r⟩ := f t Y
      cases r with
      | error e => rfl
      | ok Z =>
        simp only
        rw [← ih]
        obtain ⟨a, b, q⟩ := eachPartFit f ts Ys
        cases q <;> rfl

theorem eachPartFit_learns {f g : S → Snap K → S × Buf K} (h1 : ∀ s Y, (f s Y).1 = (g s Y).1)
    (h2 : ∀ s Y, (f s Y).2.2 = (g s Y).2.2) (ts : List S) (Ys : List (Snap K)) :
    (eachPartFit f ts Ys).1 = (eachPartFit g ts Ys).1 := by
  induction ts generalizing Ys with
  | nil => cases Ys <;> rfl
  | cons t ts ih =>
    cases Ys with
    | nil => rfl
    | cons Y Ys =>
      have h1 := h1 t Y
      have h2' := h2 t Y
      have ih := ih Ys
      have hs := eachPart_same h2 ts Ys
      rw [← eachPartFit_snd, ← eachPartFit_snd] at hs
      simp only [eachPartFit]
      generalize f t Y = p at h1 h2' ⊢
      generalize g t Y = p' at h1 h2' ⊢
      obtain ⟨t1, Y1, r1⟩ := p
      obtain ⟨t2, Y2, r2⟩ := p'
      simp only at h1 h2'
      subst h1 h2'
      cases r1 with
      | error e => rfl
      | ok Z =>
        generalize eachPartFit f ts Ys = p at ih hs ⊢
        generalize eachPartFit g ts Ys = p' at ih hs ⊢
        obtain ⟨a1, b1, q1⟩ := p
        obtain ⟨a2, b2, q2⟩ := p'
        simp only at ih hs
        subst ih hs
        cases q1 <;> rfl

theorem multiFit_parts (I : TfI K S) (hI : I.FlagOnly) (ts : List S) (Y : Snap K) :
    FlagSays (fun b => (multiFitTransform I ts b Y).2) Y ∧
    (multiFitTransform I ts true Y).1 = (multiFitTransform I ts false Y).1 := by
  have key : ∀ ts' : List S, FlagSays (fun b => (match multiSplit I ts' Y with
        | .error e => (ts', Y, .error e)
        | .ok parts => ((eachPartFit (fun t Y => I.fitTransform t b Y) ts' parts).1,
          multiResult b Y (eachPartFit (fun t Y => I.fitTransform t b Y) ts' parts).2) : List S × Buf K).2) Y ∧
      (match multiSplit I ts' Y with
        | .error e => (ts', Y, .error e)
        | .ok parts => ((eachPartFit (fun t Y => I.fitTransform t true Y) ts' parts).1,
          multiResult true Y (eachPartFit (fun t Y => I.fitTransform t true Y) ts' parts).2) : List S × Buf K).1 =
      (match multiSplit I ts' Y with
        | .error e => (ts', Y, .error e)
        | .ok parts => ((eachPartFit (fun t Y => I.fitTransform t false Y) ts' parts).1,
          multiResult false Y (eachPartFit (fun t Y => I.fitTransform t false Y) ts' parts).2) : List S × Buf K).1 := by
    intro ts'
    cases hs : multiSplit I ts' Y with
    | error e => exact ⟨flagSays_error Y e, rfl⟩
    | ok Ps =>
      obtain ⟨h1, h2⟩ := multiSplit_parts hs
      constructor
      · simp only [eachPartFit_snd]
        exact flagSays_parts (f := fun t b Y => (I.fitTransform t b Y).2) hI.fitTransform h1 h2
      · exact eachPartFit_learns hI.learns (fun s Y => (hI.fitTransform s Y).same) ts' Ps
  simp only [multiFitTransform]
  cases multiDim I ts with
  | some n => exact key ts
  | none =>
    by_cases hm : Y.len % ts.length = 0
    · simp only [if_pos hm]
      exact key _
    · simp only [if_neg hm]
      exact ⟨flagSays_error Y _, trivial⟩

/-- C105: a transformer for several variables whose parts obey the flag obeys it. -/
theorem C105_multi {I : TfI K S} (hI : I.FlagOnly) : (multiI I).FlagOnly where
  transform ts Y := by
    simp only [multiI, multiTransform]
    cases hs : multiSplit I ts Y with
    | error e => exact flagSays_error Y e
    | ok Ps => exact flagSays_parts hI.transform (multiSplit_parts hs).1 (multiSplit_parts hs).2
  ddts ts Y := by
    simp only [multiI, multiDdts]
    cases hs : multiSplit I ts Y with
    | error e => exact flagSays_error Y e
    | ok Ps => exact flagSays_parts hI.ddts (multiSplit_parts hs).1 (multiSplit_parts hs).2
  inverse ts Y l := by
    simp only [multiI, multiInverse]
    cases multiDim I ts with
    | none => exact flagSays_error Y _
    | some n =>
      cases l with
      | none =>
        simp only
        cases hs : multiSplit I ts Y with
        | error e => exact flagSays_error Y e
        | ok Ps =>
          exact flagSays_parts (f := fun t b Y => I.inverse t b Y none) (fun s Y => hI.inverse s Y none)
            (multiSplit_parts hs).1 (multiSplit_parts hs).2
      | some l =>
        simp only
        split
        · exact flagSays_error Y _
        · simp only [splitEven]
          by_cases hm : Y.len % ts.length = 0
          · rw [if_pos hm]
            refine flagSays_parts (f := fun t b Y => I.inverse t b Y (some l)) (fun s Y => hI.inverse s Y _) ?_ ?_
            · refine rejoin_splitSizes _ Y ?_
              rw [sum_replicate, smul_eq_mul]
              exact (Nat.mul_div_cancel' (Nat.dvd_of_mod_eq_zero hm)).symm
            · rw [length_splitSizes, length_replicate]
          · rw [if_neg hm]
            exact flagSays_error Y _
  fitTransform ts Y := (multiFit_parts I hI ts Y).1
  learns ts Y := (multiFit_parts I hI ts Y).2

/-! ### All of them -/

/-- The states of transformers nested to the given depth: single built-in ones, and at each level also pipelines
and transformers for several variables whose members are of the level below. -/
def Nested (K : Type) : Nat → Type
  | 0 => Basic K
  | d + 1 => Nested K d ⊕ (List (Nested K d) ⊕ List (Nested K d))

/-- Their methods. -/
def nestedI [Field K] [LinearOrder K] (sq : K → K) : (d : Nat) → TfI K (Nested K d)
  | 0 => basicI sq
  | d + 1 => sumI (nestedI sq d) (sumI (pipeI (nestedI sq d)) (multiI (nestedI sq d)))

/-- C105: every transformer built from the built-in ones, nested in any way, obeys the flag. -/
theorem C105_nested [Field K] [LinearOrder K] (sq : K → K) (d : Nat) : (nestedI sq d).FlagOnly := by
  induction d with
  | zero => exact C105_builtin sq
  | succ d ih => exact flagOnly_sum ih (flagOnly_sum (C105_pipeline ih) (C105_multi ih))

/-- C105, for reduced-order models: with such a transformer `encode` without `inplace` leaves the states and the
left-hand side it was given as they are, also if it raises, and `decode` always leaves its argument as it is. -/
theorem C105_rom [Field K] [LinearOrder K] {B : Type} (sq : K → K) (d : Nat) (R : Rom K (Nested K d) B)
    (hR : ∀ I t, R.transformer = some (I, t) → I = nestedI sq d) (q : Snap K) (lhs : Option (Snap K))
    (fitT fitB : Bool) (z : Snap K) (locs : Option Locs) :
    (R.encode q lhs false fitT fitB).states = q ∧ (R.encode q lhs false fitT fitB).lhs = lhs ∧
      (R.decode z locs).1 = z := by
  have hI := C105_nested sq d
  have h1 := C47_encode_arguments R (fun I t h t' Y => by
    rw [hR I t h]
    exact ⟨(hI.transform t' Y).keeps, (hI.ddts t' Y).keeps, (hI.fitTransform t' Y).keeps⟩) q lhs false fitT fitB
    (Or.inl rfl)
  exact ⟨h1.1, h1.2, C47_decode_argument R (fun I t h Y l => by
    rw [hR I t h]
    exact (hI.inverse t Y l).keeps) z locs⟩

/-! ### Calls in place that fail -/

/-- What a pipeline leaves in its argument when called in place and the member after `pre` raises: whatever that
member leaves when called in place on the result of the members before it. -/
theorem C105_failed_pipeline {I : TfI K S} (pre : List S) (t : S) (post : List S) (Y Z W : Snap K) (e : Err)
    (h1 : pre = [] ∧ Z = Y ∨ ((pipeI I).transform pre true Y).2 = .ok Z)
    (h2 : I.transform t true Z = (W, .error e)) :
    (pipeI I).transform (pre ++ t :: post) true Y = (W, .error e) := by
  have key : ∀ (pre : List S) (Y : Snap K), (chain I.transform pre true Y).2 = .ok Z →
      chain I.transform (pre ++ t :: post) true Y = (W, .error e) := by
    intro pre
    induction pre with
    | nil =>
      intro Y h
      cases h
      simp only [nil_append, chain, h2]
    | cons s pre ih =>
      intro Y h
      simp only [cons_append, chain] at h ⊢
      generalize I.transform s true Y = p at h ⊢
      obtain ⟨Y', r⟩ := p
      cases r with
      | error e => cases h
      | ok V =>
        simp only at h ⊢
        rw [ih V h]
        rfl
  have h3 : (chain I.transform pre true Y).2 = .ok Z := by
    rcases h1 with ⟨rfl, rfl⟩ | h1
    · rfl
    · cases pre with
      | nil => cases h1
      | cons s pre => exact h1
  simp only [pipeI]
  rw [if_neg (by simp)]
  exact key pre Y h3

/-- A shift by `(1, 2)`, followed by a scaling that was not trained. -/
def halfPipe : List (Basic ℚ) :=
  [.inl ⟨[1, 2], none⟩, .inr (.inl ⟨.num 2, none, none⟩)]

/-- A shift of the first variable by 1, and a centering of the second variable that was not trained; `n` is the
dimension of the second variable. -/
def halfMulti (n : Option Nat) : List (Basic ℚ) :=
  [.inl ⟨[1], none⟩, .inr (.inr (.inl ⟨true, none, false, none, false, n, none, none, none⟩))]

/-- C105, where it ends: pipelines and transformers for several variables that raise after some of their members
have finished leave an argument that is transformed in part when called with `inplace=True`, although the
constructors accept them. Without `inplace` the same calls raise the same exception and leave the argument alone. -/
theorem C105_failed_in_place :
    pipeMake (basicI id) halfPipe = .ok halfPipe ∧
    (pipeI (basicI id)).transform halfPipe true (.vec [5, 5]) = (.vec [4, 3], .error .attribute) ∧
    (pipeI (basicI id)).transform halfPipe false (.vec [5, 5]) = (.vec [5, 5], .error .attribute) ∧
    multiMake (basicI id) (halfMulti none) (some [1, 1]) = .ok (halfMulti (some 1)) ∧
    (multiI (basicI id)).transform (halfMulti (some 1)) true (.vec [5, 5]) = (.vec [4, 5], .error .attribute) ∧
    (multiI (basicI id)).transform (halfMulti (some 1)) false (.vec [5, 5]) = (.vec [5, 5], .error .attribute) := by
  refine ⟨rfl, ?_, ?_, rfl, ?_, ?_⟩ <;> decide +kernel

/-- So in general a failed call in place does not leave its argument as it was. -/
theorem C105_failed_not_restored :
    ¬ ∀ (ts : List (Basic ℚ)) (Y : Snap ℚ) (e : Err), ((pipeI (basicI id)).transform ts true Y).2 = .error e →
      ((pipeI (basicI id)).transform ts true Y).1 = Y := by
  intro h
  have h1 := C105_failed_in_place.2.1
  have := h halfPipe (.vec [5, 5]) .attribute (by rw [h1])
  rw [h1] at this
  revert this
  decide +kernel

/-! ### Examples -/

/-- A pipeline inside a transformer for two variables: shift, then double the first variable; the second one is
left as it is. -/
def nestEx : List (List (Basic ℚ)) :=
  [[.inl ⟨[1], none⟩, .inr (.inl ⟨.num 2, some 1, none⟩)], [.inr (.inr (.inr ⟨some 1, none⟩))]]

example : (multiI (pipeI (basicI id))).transform nestEx true (.vec [5, 7]) = (.vec [8, 7], .ok (.vec [8, 7])) ∧
    (multiI (pipeI (basicI id))).transform nestEx false (.vec [5, 7]) = (.vec [5, 7], .ok (.vec [8, 7])) := by
  decide +kernel

example : FlagSays (fun b => (multiI (pipeI (basicI id))).transform nestEx b (.vec [5, 7])) (.vec [5, 7]) :=
  (C105_multi (C105_pipeline (C105_builtin id))).transform nestEx (.vec [5, 7])

end Opinf
