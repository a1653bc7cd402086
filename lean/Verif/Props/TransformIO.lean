import Verif.Model.TransformIO
import Verif.Props.TransformFit
import Verif.Props.Persist

/-! # C40: saved transformers load back equal -/

namespace Opinf

open List

variable {K : Type}

/-! ### Names -/

theorem readName_nameAttr (name : Option String) (h : name ≠ some "None") :
    readName (nameAttr name) = name := by
  cases name with
  | none => rfl
  | some s =>
    have : s ≠ "None" := fun e => h (by rw [e])
    simp [readName, nameAttr, this]

theorem readName_eq_self_iff (name : Option String) :
    readName (nameAttr name) = name ↔ name ≠ some "None" := by
  constructor
  · rintro h rfl
    revert h
    decide
  · exact readName_nameAttr name

/-! ### Shift, null and scale transformers -/

/-- C40: a saved `ShiftTransformer` loads back with the same reference and name, unless its name is the
string `"None"`. -/
theorem C40_shift (s : Shift K) :
    s.save.2 = .ok () ∧ (Shift.load s.save.1 = .ok s ↔ s.name ≠ some "None") := by
  refine ⟨rfl, ?_⟩
  have : Shift.load s.save.1 = .ok ⟨s.qbar, readName (nameAttr s.name)⟩ := by
    simp [Shift.load, Shift.save, H5.str, H5.arr, H5.get?, H5.vals, List.lookup, asLoadError, bind,
      Except.bind, pure, Except.pure]
  rw [this, ← readName_eq_self_iff]
  cases s
  simp

/-- C40: a saved `NullTransformer` loads back equal, calibrated or not, unless its name is `"None"`. -/
theorem C40_null (s : Null) :
    (s.save (K := K)).2 = .ok () ∧ (Null.load (s.save (K := K)).1 = .ok s ↔ s.name ≠ some "None") := by
  refine ⟨rfl, ?_⟩
  have : Null.load (s.save (K := K)).1 = .ok ⟨s.n, readName (nameAttr s.name)⟩ := by
    obtain ⟨n, name⟩ := s
    cases n <;>
    simp [Null.load, Null.save, dimAttr, H5.str, H5.get?, H5.vals, List.lookup, asLoadError, bind,
      Except.bind, pure, Except.pure]
  rw [this, ← readName_eq_self_iff]
  cases s
  simp

/-- What the constructor, the `state_dimension` setter and `fit` of a `ScaleTransformer` maintain: the
scale is nonzero and an array scale determines the state dimension. -/
structure Scale.Valid [Zero K] (s : Scale K) : Prop where
  nonzero : (0 : K) ∉ s.scl.entries
  dim : ∀ v, s.scl = .arr v → s.n = some v.length

/-- Public operations on a `ScaleTransformer`. -/
inductive ScaleOp (K : Type)
  | setDim (n : Nat)
  | fit (Y : Snap K)

/-- The state after an operation, successful or not. -/
def ScaleOp.run (s : Scale K) : ScaleOp K → Scale K
  | .setDim n => (s.setDim n).1
  | .fit Y => (s.fit Y).1

theorem Scale.Valid.run [Zero K] {s : Scale K} (h : s.Valid) (op : ScaleOp K) : (op.run s).Valid := by
  obtain ⟨scl, n, name⟩ := s
  obtain ⟨h1, h2⟩ := h
  simp only at h1 h2
  cases op with
  | setDim m =>
    simp only [ScaleOp.run, Scale.setDim]
    split
    · exact ⟨h1, h2⟩
    · rename_i hm
      refine ⟨h1, fun v hv => ?_⟩
      simp only at hv
      subst hv
      by_contra hne
      exact hm ⟨rfl, by rw [h2 v rfl]; exact hne⟩
  | fit Y =>
    simp only [ScaleOp.run, Scale.fit]
    cases scl with
    | num a => exact ⟨h1, by simp [Coef.isArr]⟩
    | arr v => exact ⟨h1, h2⟩

/-- C40: every history of calls keeps a constructed `ScaleTransformer` valid. -/
theorem C40_scale_history [Zero K] [DecidableEq K] {c : Coef K} {name : Option String} {s : Scale K}
    (hm : Scale.make c name = .ok s) (ops : List (ScaleOp K)) : (ops.foldl ScaleOp.run s).Valid := by
  have h0 : s.Valid := by
    unfold Scale.make at hm
    split at hm
    · cases hm
    · rename_i h
      split at hm
      · simp only [Except.ok.injEq] at hm
        subst hm
        exact ⟨h, by simp⟩
      · simp only [Except.ok.injEq] at hm
        subst hm
        exact ⟨h, by simp⟩
  clear hm
  induction ops generalizing s with
  | nil => exact h0
  | cons op ops ih => exact ih (h0.run op)

/-- C40: a saved `ScaleTransformer` loads back equal, calibrated or not, unless its name is `"None"` or its
scale is an array with a single entry. -/
theorem C40_scale_partial [Zero K] [DecidableEq K] (s : Scale K) (hv : s.Valid) (h1 : ∀ a, s.scl ≠ .arr [a])
    (hn : s.name ≠ some "None") : s.save.2 = .ok () ∧ Scale.load s.save.1 = .ok s := by
  refine ⟨rfl, ?_⟩
  obtain ⟨scl, n, name⟩ := s
  obtain ⟨v1, v2⟩ := hv
  simp only at h1 hn v1 v2
  have hname : H5.str (Scale.save ⟨scl, n, name⟩).1 "meta.name" = .ok (nameAttr name) := rfl
  have harr : H5.arr (Scale.save ⟨scl, n, name⟩).1 "scaler" = .ok scl.entries := by
    cases n <;> simp [Scale.save, dimAttr, H5.arr, H5.get?, H5.vals, List.lookup]
  have hdim : H5.get? (Scale.save ⟨scl, n, name⟩).1 "meta.state_dimension" = n.map .nat := by
    cases n <;> simp [Scale.save, dimAttr, H5.get?, H5.vals, List.lookup]
  have hsc : scalerOf scl.entries = scl := by
    cases scl with
    | num a => rfl
    | arr v => match v with
      | [] => rfl
      | [a] => exact absurd rfl (h1 a)
      | a :: b :: v => rfl
  simp only [Scale.load, hname, harr, hdim, bind, Except.bind, hsc, Scale.make, if_neg v1,
    readName_nameAttr name hn]
  cases scl with
  | num a => cases n <;> rfl
  | arr v => rw [v2 v rfl]; rfl

/-- C40, negation: a `ScaleTransformer` with an array of one entry loads back as one with a number. It
transforms and inverts in the same way, but a different data size is no longer rejected by `fit`. -/
theorem C40_scale_one_entry_array [Field K] [DecidableEq K] (a : K) (ha : a ≠ 0) (name : Option String)
    (hn : name ≠ some "None") (s : Scale K) (hs : Scale.make (.arr [a]) name = .ok s) :
    ∃ t, Scale.load s.save.1 = .ok t ∧ t ≠ s ∧
      (∀ b Y, scaleI.transform t b Y = scaleI.transform s b Y) ∧
      ∀ Y : Snap K, Y.len ≠ 1 → (t.fit Y).2 = .ok () ∧ (s.fit Y).2 = .error .value := by
  have e0 : ¬ (0 : K) ∈ (Coef.arr [a]).entries := by simp [Coef.entries, eq_comm, ha]
  simp only [Scale.make, if_neg e0, Except.ok.injEq] at hs
  subst hs
  refine ⟨⟨.num a, some 1, name⟩, ?_, by simp, ?_, ?_⟩
  · have e1 : ¬ (0 : K) ∈ (Coef.num a).entries := by simp [Coef.entries, eq_comm, ha]
    have hname : H5.str (Scale.save ⟨.arr [a], some [a].length, name⟩).1 "meta.name" = .ok (nameAttr name) := rfl
    have harr : H5.arr (Scale.save ⟨.arr [a], some [a].length, name⟩).1 "scaler" = .ok [a] := by
      simp [Scale.save, dimAttr, H5.arr, H5.get?, H5.vals, List.lookup, Coef.entries]
    have hdim : H5.get? (Scale.save ⟨.arr [a], some [a].length, name⟩).1 "meta.state_dimension" =
        some (.nat 1) := by
      simp [Scale.save, dimAttr, H5.get?, H5.vals, List.lookup]
    simp only [Scale.load, hname, harr, hdim, bind, Except.bind, scalerOf, Scale.make, if_neg e1,
      readName_nameAttr name hn]
    rfl
  · intro b Y
    have : Scale.transform ⟨.num a, some 1, name⟩ Y = Scale.transform ⟨.arr [a], some [a].length, name⟩ Y := by
      simp only [Scale.transform, Option.isNone_some, Bool.false_eq_true, if_false, length_singleton]
      by_cases hY : Y.len = 1
      · have hc : checkShape (some 1) Y = .ok () := by simp [checkShape, hY]
        simp only [bind, Except.bind, hc]
        rw [Snap.op_fits _ (show (Coef.num a).Fits Y.len from trivial),
          Snap.op_fits _ (show (Coef.arr [a]).Fits Y.len from hY.symm)]
        congr 1
        apply Snap.rowMap_congr
        intro i hi y
        have : i = 0 := by omega
        subst this
        rfl
      · have hc : checkShape (some 1) Y = .error .value := by simp [checkShape, hY]
        simp only [bind, Except.bind, hc]
    simp only [scaleI, onBuffer, this]
  · intro Y hY
    constructor
    · simp [Scale.fit, Coef.isArr, checkShape]
    · simp [Scale.fit, Coef.isArr, checkShape, hY]

/-! ### `ShiftScaleTransformer` -/

/-- The parameters fit together: what the constructor and `fit` establish. -/
structure Sst.Consistent (s : Sst K) : Prop where
  norms : ¬ (s.byrow = true ∧ (s.scaling = some .maxnorm ∨ s.scaling = some .maxnormsym))
  mean : ∀ mu, s.mean = some mu → s.centering = true ∧ s.n = some mu.length
  both : s.alpha.isSome = s.beta.isSome
  alpha : ∀ a, s.alpha = some a → s.scaling.isSome ∧ a.isArr = s.byrow ∧
    ∀ v, a = .arr v → s.n = some v.length
  beta : ∀ b, s.beta = some b → s.scaling.isSome ∧ b.isArr = s.byrow ∧
    ∀ v, b = .arr v → s.n = some v.length

theorem sst_make_consistent {centering byrow verbose : Bool} {scaling : Option Scaling} {name : Option String}
    {s : Sst K} (h : Sst.make centering scaling byrow name verbose = .ok s) : s.Consistent := by
  unfold Sst.make at h
  split at h
  · cases h
  · rename_i hb
    simp only [Except.ok.injEq] at h
    subst h
    exact ⟨hb, by simp, rfl, by simp, by simp⟩

/-- A successful calibration. -/
theorem sst_fit_consistent [Field K] [LinearOrder K] [IsStrictOrderedRing K] {sqrt : K → K} {s s' : Sst K}
    {k : Nat} {rows : List (List K)} {Z : Snap K} (hs : s.Consistent)
    (h : s.fitTransform sqrt (.mat k rows) = (s', .ok Z)) : s'.Consistent := by
  have hok := sst_fit_ok h
  have hn : s'.n = some rows.length := hok.ready.dim
  have hscale : (s.scaling = none ∧ s'.alpha = none ∧ s'.beta = none) ∨
      ∃ a b, s.scaling.isSome ∧ s'.alpha = some a ∧ s'.beta = some b ∧ a.isArr = s.byrow ∧
        b.isArr = s.byrow ∧ a.Fits rows.length ∧ b.Fits rows.length := by
    cases hsc : s.scaling with
    | none =>
      left
      obtain ⟨e1, e2⟩ := hok.keepScale hsc
      refine ⟨rfl, ?_, ?_⟩
      · rw [e1]
        cases ha : s.alpha with
        | none => rfl
        | some a => have := (hs.alpha a ha).1; simp [hsc] at this
      · rw [e2]
        cases ha : s.beta with
        | none => rfl
        | some a => have := (hs.beta a ha).1; simp [hsc] at this
    | some sc =>
      right
      obtain ⟨a, b, e1, e2, hl⟩ := hok.learned sc hsc
      obtain ⟨q1, q2, q3, q4, _⟩ := learn_ok hl
      have hcl : (centered s' rows).length = rows.length := by simp [centered]
      exact ⟨a, b, rfl, e1, e2, q1, q2, hcl ▸ q3, hcl ▸ q4⟩
  refine ⟨?_, ?_, ?_, ?_, ?_⟩
  · rw [hok.byrow, hok.scaling]
    exact hs.norms
  · intro mu hmu
    cases hc : s.centering with
    | true =>
      obtain ⟨mu', e1, e2⟩ := hok.mean hc
      rw [hmu] at e1
      simp only [Option.some.injEq] at e1
      subst e1
      exact ⟨hok.centering.trans hc, by rw [hn, mapM_ok_length e2]⟩
    | false =>
      rw [hok.keepMean hc] at hmu
      have := (hs.mean mu hmu).1
      rw [hc] at this
      cases this
  · rcases hscale with ⟨_, e1, e2⟩ | ⟨a, b, _, e1, e2, _⟩ <;> simp [e1, e2]
  · intro a' ha'
    rcases hscale with ⟨_, e1, e2⟩ | ⟨a, b, e0, e1, e2, q1, q2, q3, q4⟩
    · rw [e1] at ha'; cases ha'
    · rw [e1] at ha'
      simp only [Option.some.injEq] at ha'
      subst ha'
      refine ⟨hok.scaling ▸ e0, hok.byrow ▸ q1, ?_⟩
      rintro v rfl
      rw [hn]
      exact congrArg some (show v.length = rows.length from q3).symm
  · intro b' hb'
    rcases hscale with ⟨_, e1, e2⟩ | ⟨a, b, e0, e1, e2, q1, q2, q3, q4⟩
    · rw [e2] at hb'; cases hb'
    · rw [e2] at hb'
      simp only [Option.some.injEq] at hb'
      subst hb'
      refine ⟨hok.scaling ▸ e0, hok.byrow ▸ q2, ?_⟩
      rintro v rfl
      rw [hn]
      exact congrArg some (show v.length = rows.length from q4).symm

/-- Successful calibrations and assignments of the mean, in any order. -/
inductive SstReach [Field K] [LinearOrder K] (sqrt : K → K) : Sst K → Prop
  | make {centering byrow verbose : Bool} {scaling : Option Scaling} {name : Option String} {s : Sst K}
      (h : Sst.make centering scaling byrow name verbose = .ok s) : SstReach sqrt s
  | fit {s s' : Sst K} {Y Z : Snap K} (hs : SstReach sqrt s) (h : s.fitTransform sqrt Y = (s', .ok Z)) :
      SstReach sqrt s'
  | setMean {s s' : Sst K} {mu : List K} (hs : SstReach sqrt s) (h : s.setMean mu = (s', .ok ())) :
      SstReach sqrt s'
  | setScaling {s s' s'' : Sst K} {a b : Coef K} (hs : SstReach sqrt s) (h : s.setScale a = (s', .ok ()))
      (h' : s'.setShift b = (s'', .ok ())) (ha : s.byrow = false → a.isArr = false ∧ b.isArr = false) :
      SstReach sqrt s''
  | setName {s : Sst K} (name : Option String) (hs : SstReach sqrt s) : SstReach sqrt { s with name := name }

theorem setMean_ok {s s' : Sst K} {mu : List K} (h : s.setMean mu = (s', .ok ())) :
    s.centering = true ∧ s' = { s with n := some mu.length, mean := some mu } ∧
      (s.n = none ∨ s.n = some mu.length) := by
  unfold Sst.setMean at h
  cases hc : s.centering with
  | false => simp [hc] at h
  | true =>
    simp only [hc, Bool.not_true, Bool.false_eq_true, if_false] at h
    split at h
    · rename_i hn
      simp only [Prod.mk.injEq, and_true] at h
      refine ⟨rfl, ?_, ?_⟩
      · rw [← h]
        cases s
        simp_all
      · cases hs : s.n with
        | none => exact .inl rfl
        | some m => right; simpa [hs] using hn
    · simp at h

theorem checkCoef_ok {s s' : Sst K} {c : Coef K} (h : s.checkCoef c = (s', .ok ())) :
    s.scaling.isSome ∧ ((s.byrow = false ∧ s' = s) ∨
      ∃ v, s.byrow = true ∧ c = .arr v ∧ s' = { s with n := some v.length } ∧
        (s.n = none ∨ s.n = some v.length)) := by
  unfold Sst.checkCoef at h
  cases hsc : s.scaling with
  | none => simp [hsc] at h
  | some sc =>
    refine ⟨rfl, ?_⟩
    simp only [hsc, Option.isNone_some, Bool.false_eq_true, if_false] at h
    cases hb : s.byrow with
    | false =>
      simp only [hb, Bool.not_false, if_true, Prod.mk.injEq, and_true] at h
      exact .inl ⟨rfl, h.symm⟩
    | true =>
      simp only [hb, Bool.not_true, Bool.false_eq_true, if_false] at h
      cases c with
      | num a => simp at h
      | arr v =>
        right
        simp only [Prod.mk.injEq] at h
        obtain ⟨h1, h2⟩ := h
        split at h2
        · rename_i hn
          refine ⟨v, rfl, rfl, ?_, ?_⟩
          · rw [← h1]
            cases s
            simp_all
          · cases hs : s.n with
            | none => exact .inl rfl
            | some m => right; simpa [hs] using hn
        · cases h2

/-- C40: whatever a user does with the public interface (with each call succeeding), the parameters of a
`ShiftScaleTransformer` fit together. -/
theorem C40_shiftscale_history [Field K] [LinearOrder K] [IsStrictOrderedRing K] {sqrt : K → K} {s : Sst K}
    (h : SstReach sqrt s) : s.Consistent := by
  induction h with
  | make h => exact sst_make_consistent h
  | @fit s s' Y Z _ h ih =>
    cases Y with
    | vec q => simp [Sst.fitTransform] at h
    | mat k rows => exact sst_fit_consistent ih h
  | @setMean s s' mu _ h ih =>
    obtain ⟨hc, rfl, hn⟩ := setMean_ok h
    obtain ⟨c1, c2, c3, c4, c5⟩ := ih
    refine ⟨c1, ?_, c3, ?_, ?_⟩
    · intro mu' e
      simp only [Option.some.injEq] at e
      subst e
      exact ⟨hc, rfl⟩
    · intro a ha
      obtain ⟨d1, d2, d3⟩ := c4 a ha
      refine ⟨d1, d2, fun v hv => ?_⟩
      have := d3 v hv
      rcases hn with hn | hn <;> rw [hn] at this
      · cases this
      · exact this
    · intro a ha
      obtain ⟨d1, d2, d3⟩ := c5 a ha
      refine ⟨d1, d2, fun v hv => ?_⟩
      have := d3 v hv
      rcases hn with hn | hn <;> rw [hn] at this
      · cases this
      · exact this
  | @setScaling s s' s'' a b _ h h' ha ih =>
    obtain ⟨c1, c2, c3, c4, c5⟩ := ih
    unfold Sst.setScale at h
    split at h
    · cases h
    rename_i s1 e1
    simp only [Prod.mk.injEq, and_true] at h
    subst h
    unfold Sst.setShift at h'
    split at h'
    · cases h'
    rename_i s2 e2
    simp only [Prod.mk.injEq, and_true] at h'
    subst h'
    obtain ⟨f1, f2⟩ := checkCoef_ok e1
    obtain ⟨g1, g2⟩ := checkCoef_ok e2
    rcases f2 with ⟨hb, rfl⟩ | ⟨v, hb, rfl, rfl, hn⟩
    · rcases g2 with ⟨_, rfl⟩ | ⟨w, hb', _⟩
      · refine ⟨c1, c2, rfl, ?_, ?_⟩
        · intro a' ha'
          simp only [Option.some.injEq] at ha'
          subst ha'
          refine ⟨f1, (ha hb).1.trans hb.symm, ?_⟩
          rintro v rfl
          cases (ha hb).1
        · intro a' ha'
          simp only [Option.some.injEq] at ha'
          subst ha'
          refine ⟨f1, (ha hb).2.trans hb.symm, ?_⟩
          rintro v rfl
          cases (ha hb).2
      · simp only at hb'
        rw [hb] at hb'
        cases hb'
    · rcases g2 with ⟨hb', _⟩ | ⟨w, _, rfl, rfl, hn'⟩
      · simp only at hb'
        rw [hb] at hb'
        cases hb'
      · simp only [Option.some.injEq, reduceCtorEq, false_or] at hn'
        refine ⟨c1, ?_, rfl, ?_, ?_⟩
        · intro mu hmu
          obtain ⟨d1, d2⟩ := c2 mu hmu
          refine ⟨d1, ?_⟩
          rcases hn with hn | hn <;> rw [hn] at d2
          · cases d2
          · simp only [Option.some.injEq] at d2 ⊢
            omega
        · intro a' ha'
          simp only [Option.some.injEq] at ha'
          subst ha'
          refine ⟨f1, hb.symm, ?_⟩
          intro v' hv'
          simp only [Coef.arr.injEq] at hv'
          subst hv'
          simp only [Option.some.injEq]
          omega
        · intro a' ha'
          simp only [Option.some.injEq] at ha'
          subst ha'
          refine ⟨f1, hb.symm, ?_⟩
          intro v' hv'
          simp only [Coef.arr.injEq] at hv'
          subst hv'
          rfl
  | setName name _ ih =>
    obtain ⟨c1, c2, c3, c4, c5⟩ := ih
    exact ⟨c1, c2, c3, c4, c5⟩

theorem Scaling.ofStr_str (sc : Scaling) : Scaling.ofStr sc.str = .ok sc := by
  cases sc <;> decide

theorem metaVals_get (s : Sst K) (rest : List (String × H5Val K)) (subs : List (H5 K)) :
    readScaling ((H5.node (s.metaVals ++ rest) subs).get? "meta.scaling") = .ok s.scaling ∧
    (H5.node (s.metaVals ++ rest) subs).str "meta.name" = .ok (nameAttr s.name) ∧
    (H5.node (s.metaVals ++ rest) subs).flag "meta.centering" = .ok s.centering ∧
    (H5.node (s.metaVals ++ rest) subs).flag "meta.byrow" = .ok s.byrow ∧
    (H5.node (s.metaVals ++ rest) subs).flag "meta.verbose" = .ok s.verbose ∧
    (s.n ≠ some 0 → readDim ((H5.node (s.metaVals ++ rest) subs).get? "meta.state_dimension") = .ok s.n) ∧
    ∀ key, key ∉ ["meta.centering", "meta.scaling", "meta.byrow", "meta.verbose", "meta.name",
      "meta.state_dimension"] → (H5.node (s.metaVals ++ rest) subs).get? key = rest.lookup key := by
  obtain ⟨centering, scaling, byrow, name, verbose, n, mean, alpha, beta⟩ := s
  refine ⟨?_, rfl, rfl, rfl, rfl, ?_, ?_⟩
  · cases scaling with
    | none => rfl
    | some sc =>
      show (Scaling.ofStr sc.str).map some = _
      rw [Scaling.ofStr_str]
      rfl
  · intro h0
    cases n with
    | none => rfl
    | some n =>
      have : n ≠ 0 := fun e => h0 (by rw [e])
      show (Except.ok (if n = 0 then none else some n) : Except Err (Option Nat)) = _
      rw [if_neg this]
  · intro key hk
    simp only [mem_cons, not_mem_nil, or_false, not_or] at hk
    obtain ⟨k1, k2, k3, k4, k5, k6⟩ := hk
    simp only [H5.get?, H5.vals, Sst.metaVals, cons_append, nil_append, List.lookup, beq_eq_false_iff_ne.2 k1,
      beq_eq_false_iff_ne.2 k2, beq_eq_false_iff_ne.2 k3, beq_eq_false_iff_ne.2 k4,
      beq_eq_false_iff_ne.2 k5, beq_eq_false_iff_ne.2 k6]

theorem readCoef_entries {byrow : Bool} {c : Coef K} (h : c.isArr = byrow) :
    readCoef byrow c.entries = .ok c := by
  subst h
  cases c <;> rfl

/-- C40: a saved `ShiftScaleTransformer`, calibrated or not, loads back with all its attributes. (A name
`"None"` becomes `None`; a state dimension 0 is lost.) -/
theorem C40_shiftscale (s : Sst K) (hs : s.Consistent) (hn : s.name ≠ some "None") (h0 : s.n ≠ some 0) :
    s.save.2 = .ok () ∧ Sst.load s.save.1 = .ok s := by
  -- the values written after the attributes
  suffices h : ∃ rest, s.save = (.node (s.metaVals ++ rest) [], .ok ()) ∧
      (rest.lookup "transformation/mean_" = s.mean.map .arr) ∧
      (rest.lookup "transformation/scale_" = s.alpha.map fun a => .arr a.entries) ∧
      (rest.lookup "transformation/shift_" = s.beta.map fun b => .arr b.entries) by
    obtain ⟨rest, e, m, a, b⟩ := h
    obtain ⟨g1, g2, g3, g4, g5, g6, g7⟩ := metaVals_get s rest []
    have gm := g7 "transformation/mean_" (by simp)
    have ga := g7 "transformation/scale_" (by simp)
    have gb := g7 "transformation/shift_" (by simp)
    rw [m] at gm
    rw [a] at ga
    rw [b] at gb
    refine ⟨by rw [e], ?_⟩
    rw [e]
    generalize H5.node (s.metaVals ++ rest) [] = h5 at *
    clear e m a b g7
    obtain ⟨centering, scaling, byrow, name, verbose, n, mean, alpha, beta⟩ := s
    obtain ⟨c1, c2, c3, c4, c5⟩ := hs
    simp only at c1 c2 c3 c4 c5 hn h0 g1 g2 g3 g4 g5 g6 gm ga gb
    have hmake : Sst.make (K := K) centering scaling byrow (readName (nameAttr name)) verbose =
        .ok ⟨centering, scaling, byrow, name, verbose, none, none, none, none⟩ := by
      rw [readName_nameAttr name hn, Sst.make, if_neg c1]
    have hmean : Sst.loadMean h5 ⟨centering, scaling, byrow, name, verbose, n, none, none, none⟩ =
        .ok ⟨centering, scaling, byrow, name, verbose, n, mean, none, none⟩ := by
      cases mean with
      | none =>
        simp only [Sst.loadMean, gm, Option.map_none]
      | some mu =>
        obtain ⟨d1, d2⟩ := c2 mu rfl
        subst d1 d2
        simp [Sst.loadMean, gm, Sst.setMean, assigned, Except.map]
    have hscale : Sst.loadScale h5 ⟨centering, scaling, byrow, name, verbose, n, mean, none, none⟩ =
        .ok ⟨centering, scaling, byrow, name, verbose, n, mean, alpha, beta⟩ := by
      cases alpha with
      | none =>
        cases beta with
        | some b => simp at c3
        | none =>
          simp only [Sst.loadScale, ga, Option.map_none]
          cases scaling <;> rfl
      | some a =>
        cases beta with
        | none => simp at c3
        | some b =>
          obtain ⟨a1, a2, a3⟩ := c4 a rfl
          obtain ⟨b1, b2, b3⟩ := c5 b rfl
          obtain ⟨sc, hsc⟩ := Option.isSome_iff_exists.1 a1
          subst hsc
          have hb : H5.arr h5 "transformation/shift_" = .ok b.entries := by
            simp [H5.arr, gb]
          have hset : Sst.setScale ⟨centering, some sc, byrow, name, verbose, n, mean, none, none⟩ a =
              (⟨centering, some sc, byrow, name, verbose, n, mean, some a, none⟩, .ok ()) := by
            cases byrow with
            | false => simp [Sst.setScale, Sst.checkCoef]
            | true =>
              cases a with
              | num x => cases a2
              | arr v =>
                have := a3 v rfl
                subst this
                simp [Sst.setScale, Sst.checkCoef]
          have hset' : Sst.setShift ⟨centering, some sc, byrow, name, verbose, n, mean, some a, none⟩ b =
              (⟨centering, some sc, byrow, name, verbose, n, mean, some a, some b⟩, .ok ()) := by
            cases byrow with
            | false => simp [Sst.setShift, Sst.checkCoef]
            | true =>
              cases b with
              | num x => cases b2
              | arr v =>
                have := b3 v rfl
                subst this
                simp [Sst.setShift, Sst.checkCoef]
          simp only [Sst.loadScale, ga, Option.map_some, Option.isSome_some, readCoef_entries a2, bind,
            Except.bind, hset, assigned, Except.map, hb, readCoef_entries b2, hset']
    simp only [Sst.load, g1, g2, g3, g4, g5, g6 h0, bind, Except.bind, hmake, hmean, hscale, asLoadError]
  obtain ⟨centering, scaling, byrow, name, verbose, n, mean, alpha, beta⟩ := s
  obtain ⟨c1, c2, c3, c4, c5⟩ := hs
  simp only at c1 c2 c3 c4 c5 hn h0
  have hmv : Sst.meanVals ⟨centering, scaling, byrow, name, verbose, n, mean, alpha, beta⟩ =
      (match mean with | some mu => [("transformation/mean_", .arr mu)] | none => []) := by
    cases mean with
    | none => simp [Sst.meanVals]
    | some mu =>
      have := (c2 mu rfl).1
      subst this
      simp [Sst.meanVals]
  cases alpha with
  | none =>
    cases beta with
    | some b => simp at c3
    | none =>
      refine ⟨Sst.meanVals ⟨centering, scaling, byrow, name, verbose, n, mean, none, none⟩,
        by cases scaling <;> rfl, ?_⟩
      rw [hmv]
      cases mean <;> simp [List.lookup]
  | some a =>
    cases beta with
    | none => simp at c3
    | some b =>
      have hsc := (c4 a rfl).1
      refine ⟨_, by simp only [Sst.save, hsc]; rw [append_assoc], ?_⟩
      rw [hmv]
      cases mean <;> simp [List.lookup]

theorem Sst.Consistent.beq_self [DecidableEq K] {s : Sst K} (hs : s.Consistent) : s.beq s = true := by
  obtain ⟨centering, scaling, byrow, name, verbose, n, mean, alpha, beta⟩ := s
  have c3 := hs.both
  simp only at c3
  cases centering <;> cases mean <;> cases scaling <;> cases alpha <;> cases beta <;>
    simp_all [Sst.beq]

/-- C40: the loaded transformer is equal to the saved one in the sense of `==`. -/
theorem C40_shiftscale_eq [DecidableEq K] (s : Sst K) (hs : s.Consistent) (hn : s.name ≠ some "None")
    (h0 : s.n ≠ some 0) : ∃ t, Sst.load s.save.1 = .ok t ∧ t.beq s = true ∧ s.beq t = true := by
  exact ⟨s, (C40_shiftscale s hs hn h0).2, hs.beq_self, hs.beq_self⟩

theorem loadMean_scaling {h : H5 K} {t t' : Sst K} (e : Sst.loadMean h t = .ok t') : t'.scaling = t.scaling := by
  unfold Sst.loadMean at e
  split at e
  · rename_i mu _ _
    unfold assigned at e
    cases hr : t.setMean mu with
    | mk s1 r =>
      rw [hr] at e
      cases r with
      | error _ => cases e
      | ok u =>
        simp only [Except.map, Except.ok.injEq] at e
        subst e
        obtain ⟨_, rfl, _⟩ := setMean_ok hr
        rfl
  · simp only [Except.ok.injEq] at e
    rw [e]

theorem loadScale_without_shift {h : H5 K} {t : Sst K} {v : List K} (hs : t.scaling.isSome)
    (h1 : h.get? "transformation/scale_" = some (.arr v)) (h2 : h.get? "transformation/shift_" = none) :
    ∃ e, Sst.loadScale h t = .error e := by
  unfold Sst.loadScale
  simp only [hs, h1, bind, Except.bind, H5.arr, h2]
  cases readCoef t.byrow v with
  | error e => exact ⟨e, rfl⟩
  | ok c =>
    cases hr : assigned (t.setScale c) with
    | error e => exact ⟨e, by simp only [hr]⟩
    | ok t' => exact ⟨.key, by simp only [hr]⟩

/-- C40, negation: a transformer whose `scale_` was assigned but not its `shift_` cannot be saved: `save`
raises after it has written a part of the file, and that part cannot be loaded. -/
theorem C40_scale_without_shift (s s' : Sst K) (a : Coef K) (hb : s.beta = none)
    (h : s.setScale a = (s', .ok ())) :
    s'.save.2 = .error .type ∧ Sst.load s'.save.1 = .error .loadfileFormat := by
  have hs' : s'.scaling.isSome ∧ s'.alpha = some a ∧ s'.beta = none := by
    unfold Sst.setScale at h
    split at h
    · cases h
    rename_i s1 e1
    simp only [Prod.mk.injEq, and_true] at h
    subst h
    obtain ⟨f1, f2⟩ := checkCoef_ok e1
    rcases f2 with ⟨_, rfl⟩ | ⟨v, _, _, rfl, _⟩
    · exact ⟨f1, rfl, hb⟩
    · exact ⟨f1, rfl, hb⟩
  obtain ⟨h1, h2, h3⟩ := hs'
  have hsave : s'.save = (.node (s'.metaVals ++ (s'.meanVals ++ [("transformation/scale_", .arr a.entries)])) [],
      .error .type) := by
    simp only [Sst.save, h1, h2, h3, append_assoc]
  rw [hsave]
  refine ⟨rfl, ?_⟩
  obtain ⟨g1, g2, g3, g4, g5, _, g7⟩ := metaVals_get s'
    (s'.meanVals ++ [("transformation/scale_", .arr a.entries)]) []
  have ga := g7 "transformation/scale_" (by simp)
  have gb := g7 "transformation/shift_" (by simp)
  have la : (s'.meanVals ++ [("transformation/scale_", H5Val.arr a.entries)]).lookup "transformation/scale_" =
      some (.arr a.entries) := by
    unfold Sst.meanVals
    split <;> simp [List.lookup]
  have lb : (s'.meanVals ++ [("transformation/scale_", H5Val.arr a.entries)]).lookup "transformation/shift_" =
      none := by
    unfold Sst.meanVals
    split <;> simp [List.lookup]
  rw [la] at ga
  rw [lb] at gb
  simp only [Sst.load]
  generalize H5.node (s'.metaVals ++ (s'.meanVals ++ [("transformation/scale_", H5Val.arr a.entries)])) [] = h5 at *
  simp only [g1, g2, g3, g4, g5, bind, Except.bind]
  cases hm : Sst.make (K := K) s'.centering s'.scaling s'.byrow (readName (nameAttr s'.name)) s'.verbose with
  | error e => rfl
  | ok t =>
    have ht : t.scaling = s'.scaling := by
      unfold Sst.make at hm
      split at hm
      · cases hm
      · simp only [Except.ok.injEq] at hm
        rw [← hm]
    simp only
    cases hd : readDim (h5.get? "meta.state_dimension") with
    | error e => rfl
    | ok n =>
      simp only
      cases hl : Sst.loadMean h5 { t with n := n } with
      | error e => rfl
      | ok t' =>
        simp only
        have := loadMean_scaling hl
        obtain ⟨e, he⟩ := loadScale_without_shift (t := t') (by rw [this]; simp only [ht, h1]) ga gb
        rw [he]
        rfl

/-- C52, negation with this transformer: an existing file is replaced by one that cannot be loaded. -/
theorem C52_failed_save_destroys_witness (s s' : Sst K) (a : Coef K) (hb : s.beta = none)
    (h : s.setScale a = (s', .ok ())) (fs : FS K) (path : String) :
    (saveFile fs path true s'.save).2.1 = .error .type ∧
      loadFile (saveFile fs path true s'.save).1 path Sst.load = .error .loadfileFormat := by
  obtain ⟨h1, h2⟩ := C40_scale_without_shift s s' a hb h
  constructor
  · simp [saveFile, h1]
  · simp [saveFile, loadFile, FS.write, h2, asLoadError]

/-! ### Pipelines and multi-variable transformers -/

theorem saveEach_ok {S : Type} {save : S → Saved K} {ts : List S} (h : ∀ t ∈ ts, (save t).2 = .ok ()) :
    saveEach save ts = (ts.map fun t => (save t).1, .ok ()) := by
  induction ts with
  | nil => rfl
  | cons t ts ih =>
    have h1 := h t (by simp)
    have h2 := ih fun u hu => h u (mem_cons_of_mem _ hu)
    have e : save t = ((save t).1, .ok ()) := Prod.ext rfl h1
    rw [saveEach, e]
    simp only [h2, map_cons]

theorem mapM_range_getElem {S : Type} (f : Nat → Except Err S) (ts : List S)
    (h : ∀ i (hi : i < ts.length), f i = .ok ts[i]) : (range ts.length).mapM f = .ok ts := by
  induction ts generalizing f with
  | nil => rfl
  | cons t ts ih =>
    have h2 := ih (fun i => f (i + 1)) fun i hi => h (i + 1) (by simpa using hi)
    rw [length_cons, range_succ_eq_map, mapM_cons, mapM_map, h 0 (by simp)]
    simp only [bind, Except.bind, pure, Except.pure, Function.comp_def] at h2 ⊢
    rw [h2]
    rfl

theorem loadEach_ok {C S : Type} {io : TfIO K C S} {ts : List S}
    (h : ∀ t ∈ ts, io.load (io.cls t) (io.save t).1 = .ok t) :
    loadEach io.load ts.length (ts.map io.cls) (ts.map fun t => (io.save t).1) = .ok ts := by
  apply mapM_range_getElem
  intro i hi
  simp only [getElem?_map, getElem?_eq_getElem hi, Option.map_some]
  exact h _ (getElem_mem hi)

/-- The persistence methods work for the transformer `t`. -/
def TfIO.RoundTrip {C S : Type} (io : TfIO K C S) (t : S) : Prop :=
  (io.save t).2 = .ok () ∧ io.load (io.cls t) (io.save t).1 = .ok t

/-- C40: a pipeline with a name loads back with the same transformers and name if each transformer does. -/
theorem C40_pipeline_partial {C S : Type} (I : TfI K S) (io : TfIO K C S) (ts : List S) (name : String)
    (h : ∀ t ∈ ts, io.RoundTrip t) (hm : pipeMake I ts = .ok ts) :
    (pipeSave io (some name) ts).2 = .ok () ∧
      pipeLoad I io (ts.map io.cls) (pipeSave io (some name) ts).1 = .ok (some name, ts) := by
  have e := saveEach_ok (save := io.save) fun t ht => (h t ht).1
  simp only [pipeSave, e, true_and]
  have e1 : H5.str (H5.node [("meta.name", H5Val.str (nameAttr (some name))),
      ("meta.num_transformers", .nat ts.length)] (ts.map fun t => (io.save t).1)) "meta.name" = .ok name := rfl
  have e2 : H5.nat (H5.node [("meta.name", H5Val.str (nameAttr (some name))),
      ("meta.num_transformers", .nat ts.length)] (ts.map fun t => (io.save t).1)) "meta.num_transformers" =
        .ok ts.length := by
    simp [H5.nat, H5.get?, H5.vals, List.lookup]
  simp only [pipeLoad, e1, e2, bind, Except.bind, length_map, ne_eq, not_true_eq_false, if_false, H5.subs,
    loadEach_ok fun t ht => (h t ht).2, hm, pure, Except.pure, asLoadError]

/-- C40, negation: a pipeline without a name loads back with the name `"None"`. -/
theorem C40_pipeline_name_lost {C S : Type} (I : TfI K S) (io : TfIO K C S) (ts : List S)
    (h : ∀ t ∈ ts, io.RoundTrip t) (hm : pipeMake I ts = .ok ts) :
    pipeLoad I io (ts.map io.cls) (pipeSave io none ts).1 = .ok (some "None", ts) :=
  (C40_pipeline_partial I io ts "None" h hm).2

/-- C40: loading a pipeline with the wrong number of classes is refused. -/
theorem C40_pipeline_wrong_classes {C S : Type} (I : TfI K S) (io : TfIO K C S) (ts : List S)
    (name : Option String) (cs : List C) (hc : cs.length ≠ ts.length) :
    pipeLoad I io cs (pipeSave io name ts).1 = .error .loadfileFormat := by
  have e1 : H5.str (pipeSave io name ts).1 "meta.name" = .ok (nameAttr name) := rfl
  have e2 : H5.nat (pipeSave io name ts).1 "meta.num_transformers" = .ok ts.length := by
    simp [pipeSave, H5.nat, H5.get?, H5.vals, List.lookup]
  simp only [pipeLoad, e1, e2, bind, Except.bind, ne_eq, hc, not_false_eq_true, if_true, asLoadError]
  rfl

/-- C40: loading a multi-variable transformer with the wrong number of classes is refused. -/
theorem C40_multi_wrong_classes {C S : Type} (I : TfI K S) (io : TfIO K C S) (ts : List S) (cs : List C)
    (hc : cs.length ≠ ts.length) : multiLoad I io cs (multiSave io ts).1 = .error .loadfileFormat := by
  have e2 : H5.nat (multiSave io ts).1 "num_variables" = .ok ts.length := rfl
  simp only [multiLoad, e2, bind, Except.bind, ne_eq, hc, not_false_eq_true, if_true, asLoadError]
  rfl

theorem defaultNames_named {C S : Type} (io : TfIO K C S) (ts : List S) (h : ∀ t ∈ ts, (io.name t).isSome) :
    defaultNames io ts = ts := by
  apply List.ext_getElem
  · simp [defaultNames]
  · intro i h1 h2
    have := h _ (getElem_mem h2)
    simp only [defaultNames, getElem_mapIdx]
    rw [if_neg]
    simpa [Option.isSome_iff_ne_none] using this

/-- C40: a multi-variable transformer loads back with the same transformers, names and variable sizes if each
transformer does. (All transformers of a constructed one have names.) -/
theorem C40_multi {C S : Type} (I : TfI K S) (io : TfIO K C S) (ts : List S) (hne : ts ≠ [])
    (h : ∀ t ∈ ts, io.RoundTrip t) (hname : ∀ t ∈ ts, (io.name t).isSome) :
    (multiSave io ts).2 = .ok () ∧ multiLoad I io (ts.map io.cls) (multiSave io ts).1 = .ok ts := by
  have e := saveEach_ok (save := io.save) fun t ht => (h t ht).1
  simp only [multiSave, e, true_and]
  have e2 : H5.nat (H5.node [("num_variables", H5Val.nat ts.length)] (ts.map fun t => (io.save t).1))
      "num_variables" = .ok ts.length := rfl
  have hemp : ts.isEmpty = false := by simpa using hne
  simp only [multiLoad, e2, bind, Except.bind, length_map, ne_eq, not_true_eq_false, if_false, H5.subs,
    loadEach_ok fun t ht => (h t ht).2, defaultNames_named io ts hname, multiMake, hemp, Bool.false_eq_true,
    asLoadError]

/-- C40: a multi-variable transformer constructed from built-in transformers has names for all. -/
theorem C40_multi_named [Zero K] [DecidableEq K] (ts : List (Basic K)) :
    ∀ t ∈ defaultNames basicIO ts, (basicIO.name t).isSome := by
  intro t ht
  obtain ⟨i, hi, rfl⟩ := mem_mapIdx.1 ht
  split
  · generalize ts[i] = t
    rcases t with t | t | t | t <;> rfl
  · rename_i h
    simpa [Option.isSome_iff_ne_none] using h

/-- What is asked of a built-in transformer: see `C40_shift`, `C40_scale_partial`, `C40_shiftscale`,
`C40_null`. -/
def Basic.Saveable [Zero K] : Basic K → Prop
  | .inl s => s.name ≠ some "None"
  | .inr (.inl s) => s.Valid ∧ (∀ a, s.scl ≠ .arr [a]) ∧ s.name ≠ some "None"
  | .inr (.inr (.inl s)) => s.Consistent ∧ s.name ≠ some "None" ∧ s.n ≠ some 0
  | .inr (.inr (.inr s)) => s.name ≠ some "None"

/-- C40: built-in transformers make the round trip, also inside pipelines and multi-variable transformers. -/
theorem C40_basic [Zero K] [DecidableEq K] (t : Basic K) (h : t.Saveable) :
    (basicIO (K := K)).RoundTrip t := by
  rcases t with s | s | s | s
  · have := C40_shift s
    exact ⟨this.1, by simp only [basicIO, this.2.2 h, Except.map]⟩
  · obtain ⟨h1, h2, h3⟩ := h
    have := C40_scale_partial s h1 h2 h3
    exact ⟨this.1, by simp only [basicIO, this.2, Except.map]⟩
  · obtain ⟨h1, h2, h3⟩ := h
    have := C40_shiftscale s h1 h2 h3
    exact ⟨this.1, by simp only [basicIO, this.2, Except.map]⟩
  · have := C40_null (K := K) s
    exact ⟨this.1, by simp only [basicIO, this.2.2 h, Except.map]⟩

/-- C40, negation: except for `ShiftScaleTransformer`, a loaded transformer is never `==` to the saved one,
because the classes do not define equality; neither is a multi-variable transformer with such a part. -/
theorem C40_loaded_not_equal [DecidableEq K] (ts : List (Basic K)) (t : Basic K) (ht : t ∈ ts)
    (hcls : ∀ s, t ≠ .inr (.inr (.inl s))) : multiEq (Basic.pyEq false) ts ts = false := by
  have h1 : Basic.pyEq false t t = false := by
    rcases t with t | t | t | t
    · rfl
    · rfl
    · exact absurd rfl (hcls t)
    · rfl
  simp only [multiEq, beq_self_eq_true, Bool.true_and]
  rw [Bool.eq_false_iff]
  intro hall
  rw [all_eq_true] at hall
  have := hall (t, t) (by
    obtain ⟨i, hi, rfl⟩ := mem_iff_getElem.1 ht
    rw [mem_iff_getElem]
    exact ⟨i, by simpa using hi, by simp⟩)
  rw [h1] at this
  cases this

/-- C40: a multi-variable transformer of `ShiftScaleTransformer`s is `==` to the loaded one. -/
theorem C40_multi_shiftscale_equal [DecidableEq K] (ss : List (Sst K)) (h : ∀ s ∈ ss, s.Consistent) :
    multiEq (Basic.pyEq false) (ss.map fun s => .inr (.inr (.inl s))) (ss.map fun s => .inr (.inr (.inl s))) =
      true := by
  simp only [multiEq, beq_self_eq_true, Bool.true_and]
  rw [all_eq_true]
  intro p hp
  rw [zip_map', mem_map] at hp
  obtain ⟨s, hs, rfl⟩ := hp
  exact (h s hs).beq_self

/-! ### Examples -/

/-- A calibrated transformer. -/
def exSaved : Sst ℚ := ((sstI exSqrt).fitTransform { exSst with name := some "u", verbose := true } false exQ).1

-- A calibrated transformer meets the hypotheses of `C40_shiftscale` and is loaded from the saved contents.
example : exSaved.save.2 = .ok () ∧ Sst.load exSaved.save.1 = .ok exSaved := by decide +kernel

example : SstReach exSqrt exSaved := by
  have h : Sst.make true (some .minmax) true (some "u") true = .ok { exSst with name := some "u", verbose := true } := by
    decide +kernel
  exact .fit (Z := .mat 3 [[0, 1/5, 1], [0, 4/5, 1]]) (Y := exQ) (.make h) (by decide +kernel)

-- The mixed hypotheses of the multi-variable theorem.
example : multiLoad (basicI exSqrt) basicIO [.shift, .scale, .shiftScale]
    (multiSave basicIO [.inl ⟨[1, 2], some "p"⟩, .inr (.inl ⟨.num 3, some 2, some "q"⟩),
      .inr (.inr (.inl exSaved))]).1 =
    .ok [.inl ⟨[1, 2], some "p"⟩, .inr (.inl ⟨.num 3, some 2, some "q"⟩), .inr (.inr (.inl exSaved))] := by
  decide +kernel

-- A scale can be assigned without a shift.
example : (Sst.setScale ⟨false, some .minmax, false, none, false, none, none, none, none⟩ (.num (2 : ℚ))).2 =
    .ok () := by decide +kernel

end Opinf
