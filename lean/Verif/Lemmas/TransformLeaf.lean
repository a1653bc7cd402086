import Verif.Lemmas.Transform

/-! # The built-in transformers act row by row as affine maps -/

namespace Opinf

open List

variable {K : Type} [Field K]

omit [Field K] in
theorem checkShape_ok {n : Nat} {Y : Snap K} (h : Y.len = n) : checkShape (some n) Y = .ok () := by
  simp [checkShape, h]

omit [Field K] in
theorem checkShape_bad {n : Nat} {Y : Snap K} (h : Y.len ≠ n) :
    checkShape (some n) Y = .error .value := by
  simp [checkShape, h]

theorem getD_map_ix (as : List K) (ix : List Nat) (j : Nat) (h : j < ix.length) :
    (ix.map fun i => as.getD i 0).getD j 0 = as.getD (ix.getD j 0) 0 := by
  simp [getD_eq_getElem?_getD, h]

/-! ### Shift -/

theorem shift_affine (s : Shift K) :
    shiftI.Affine s s.qbar.length (fun _ => 1) fun i => -s.qbar.getD i 0 where
  dim := rfl
  nz _ _ := one_ne_zero
  transform b Y h := by
    simp only [shiftI]
    refine onBuffer_ok ?_
    simp only [Shift.transform, checkShape_ok h, bind, Except.bind]
    rw [Snap.op_fits _ (show (Coef.arr s.qbar).Fits Y.len from h.symm)]
    congr 1
    apply Snap.rowMap_congr
    intro i _ y
    simp only [Coef.get]
    ring
  ddts b Y h := by
    simp only [shiftI]
    refine onBuffer_ok ?_
    rw [Snap.rowMap_eq_self]
    intro i _ y
    ring
  inverse b Y h := by
    simp only [shiftI]
    refine onBuffer_ok ?_
    simp only [Shift.inverse, checkShape_ok h, bind, Except.bind]
    rw [Snap.op_fits _ (show (Coef.arr s.qbar).Fits Y.len from h.symm)]
    congr 1
    apply Snap.rowMap_congr
    intro i _ y
    simp only [Coef.get]
    ring
  reject Y b h := ⟨.value, by
    simp only [shiftI]
    refine onBuffer_error ?_
    simp only [Shift.transform, checkShape_bad h, bind, Except.bind]⟩
  rejectInv Y b h := ⟨.value, by
    simp only [shiftI]
    refine onBuffer_error ?_
    simp only [Shift.inverse, checkShape_bad h, bind, Except.bind]⟩

theorem shift_affineAt (s : Shift K) :
    shiftI.AffineAt s s.qbar.length (fun _ => 1) fun i => -s.qbar.getD i 0 := by
  intro b Y l ix hl hY
  obtain ⟨is, hc, hm, hlen, _⟩ := locate_eq hl
  simp only [shiftI]
  refine onBuffer_ok ?_
  simp only [Shift.inverse, hc Y.len (hY.trans hlen), fancy_eq hm rfl, bind, Except.bind]
  rw [Snap.op_fits _ (by simp [Coef.Fits, hY])]
  congr 1
  apply Snap.rowMap_congr
  intro j hj y
  simp only [Coef.get]
  rw [getD_map_ix _ _ _ (by omega)]
  ring

/-! ### Scale -/

/-- A scale transformer that is ready for states with `n` entries. -/
structure Scale.Ready (s : Scale K) (n : Nat) : Prop where
  dim : s.n = some n
  fits : s.scl.Fits n
  nz : (0 : K) ∉ s.scl.entries

theorem scale_transform_eq {s : Scale K} {n : Nat} (h : s.n = some n) (hf : s.scl.Fits n) {Y : Snap K}
    (hY : Y.len = n) : s.transform Y = .ok (Y.rowMap fun i y => s.scl.get i * y) := by
  simp only [Scale.transform, h, Option.isNone_some, Bool.false_eq_true, if_false, checkShape_ok hY, bind,
    Except.bind]
  rw [Snap.op_fits _ (hY ▸ hf)]
  congr 1
  apply Snap.rowMap_congr
  intro i _ y
  ring

variable [DecidableEq K]

theorem scale_affine {s : Scale K} {n : Nat} (h : s.Ready n) :
    scaleI.Affine s n s.scl.get fun _ => 0 where
  dim := h.dim
  nz _ hi := Coef.get_ne_zero h.fits h.nz hi
  transform b Y hY := by
    simp only [scaleI]
    refine onBuffer_ok ?_
    rw [scale_transform_eq h.dim h.fits hY]
    congr 1
    apply Snap.rowMap_congr
    intro i _ y
    ring
  ddts b Y hY := onBuffer_ok (scale_transform_eq h.dim h.fits hY)
  inverse b Y hY := by
    simp only [scaleI]
    refine onBuffer_ok ?_
    simp only [Scale.inverse, h.dim, Option.isNone_some, Bool.false_eq_true, if_false, checkShape_ok hY,
      bind, Except.bind]
    rw [Snap.div_fits (hY ▸ h.fits) h.nz]
    congr 1
    apply Snap.rowMap_congr
    intro i _ y
    ring
  reject Y b hY := ⟨.value, by
    simp only [scaleI]
    refine onBuffer_error ?_
    simp only [Scale.transform, h.dim, Option.isNone_some, Bool.false_eq_true, if_false,
      checkShape_bad hY, bind, Except.bind]⟩
  rejectInv Y b hY := ⟨.value, by
    simp only [scaleI]
    refine onBuffer_error ?_
    simp only [Scale.inverse, h.dim, Option.isNone_some, Bool.false_eq_true, if_false,
      checkShape_bad hY, bind, Except.bind]⟩

theorem scale_affineAt {s : Scale K} {n : Nat} (h : s.Ready n) :
    scaleI.AffineAt s n s.scl.get fun _ => 0 := by
  intro b Y l ix hl hY
  obtain ⟨is, hc, hm, hlen, hix⟩ := locate_eq hl
  simp only [scaleI]
  refine onBuffer_ok ?_
  simp only [Scale.inverse, h.dim, Option.isNone_some, Bool.false_eq_true, if_false,
    hc Y.len (hY.trans hlen), bind, Except.bind]
  have hf := h.fits
  have h0 := h.nz
  cases hs : s.scl with
  | num a =>
    rw [hs] at h0
    simp only
    rw [Snap.div_fits (c := .num a) trivial h0]
    congr 1
    apply Snap.rowMap_congr
    intro i _ y
    simp [Coef.get]
  | arr as =>
    rw [hs] at h0 hf
    simp only [Coef.Fits] at hf
    simp only [fancy_eq hm hf]
    rw [Snap.div_fits (by simp [Coef.Fits, hY])]
    · congr 1
      apply Snap.rowMap_congr
      intro j hj y
      simp only [Coef.get]
      rw [getD_map_ix _ _ _ (by omega), sub_zero]
    · intro hz
      simp only [Coef.entries, mem_map] at hz
      obtain ⟨i, hi, hz⟩ := hz
      exact Coef.get_ne_zero (c := .arr as) (n := n) (by simpa [Coef.Fits] using hf) h0 (hix i hi) hz

/-! ### Null -/

omit [DecidableEq K] in
theorem null_affine {s : Null} {n : Nat} (h : s.n = some n) :
    (nullI (K := K)).Affine s n (fun _ => 1) fun _ => 0 where
  dim := h
  nz _ _ := one_ne_zero
  transform b Y hY := by
    simp only [nullI]
    refine onBuffer_ok ?_
    rw [Snap.rowMap_eq_self (by intro i _ y; ring)]
    simp only [h, checkShape_ok hY, bind, Except.bind, pure, Except.pure]
  ddts b Y hY := by
    simp only [nullI]
    refine onBuffer_ok ?_
    rw [Snap.rowMap_eq_self (by intro i _ y; ring)]
    simp only [h, checkShape_ok hY, bind, Except.bind, pure, Except.pure]
  inverse b Y hY := by
    simp only [nullI]
    refine onBuffer_ok ?_
    rw [Snap.rowMap_eq_self (by intro i _ y; ring)]
    simp only [Null.inverse, h, checkShape_ok hY, bind, Except.bind, pure, Except.pure]
  reject Y b hY := ⟨.value, by
    simp only [nullI]
    refine onBuffer_error ?_
    simp only [h, checkShape_bad hY, bind, Except.bind]⟩
  rejectInv Y b hY := ⟨.value, by
    simp only [nullI]
    refine onBuffer_error ?_
    simp only [Null.inverse, h, checkShape_bad hY, bind, Except.bind]⟩

omit [DecidableEq K] in
theorem null_affineAt {s : Null} {n : Nat} (h : s.n = some n) :
    (nullI (K := K)).AffineAt s n (fun _ => 1) fun _ => 0 := by
  intro b Y l ix hl hY
  obtain ⟨is, hc, hm, hlen, hix⟩ := locate_eq hl
  simp only [nullI]
  refine onBuffer_ok ?_
  rw [Snap.rowMap_eq_self (by intro i _ y; ring)]
  simp only [Null.inverse, h, hc Y.len (hY.trans hlen), bind, Except.bind, pure, Except.pure]

/-! ### Shift and scale -/

/-- A shift-scale transformer that is ready for states with `n` entries: it has the parameters that its
options ask for, with the right shapes, and no scale is zero. -/
structure Sst.Ready (s : Sst K) (n : Nat) : Prop where
  dim : s.n = some n
  mean : s.centering = true → ∃ mu, s.mean = some mu ∧ mu.length = n
  scale : s.scaling.isSome → ∃ a b, s.alpha = some a ∧ s.beta = some b ∧ a.isArr = s.byrow ∧
    b.isArr = s.byrow ∧ a.Fits n ∧ b.Fits n ∧ (0 : K) ∉ a.entries

/-- The factor of row `i`. -/
def Sst.factor (s : Sst K) (i : Nat) : K :=
  if s.scaling.isSome then (s.alpha.map (·.get i)).getD 1 else 1

/-- The mean of row `i`. -/
def Sst.center (s : Sst K) (i : Nat) : K :=
  if s.centering then (s.mean.map (·.getD i 0)).getD 0 else 0

/-- The shift of row `i`. -/
def Sst.offset (s : Sst K) (i : Nat) : K :=
  if s.scaling.isSome then (s.beta.map (·.get i)).getD 0 else 0

/-- The constant term of row `i`. -/
def Sst.const (s : Sst K) (i : Nat) : K := s.offset i - s.factor i * s.center i

omit [DecidableEq K] in
theorem Sst.Ready.trained {s : Sst K} {n : Nat} (h : s.Ready n) : s.isTrained = true := by
  have h1 := h.mean
  have h2 := h.scale
  unfold Sst.isTrained
  cases hc : s.centering with
  | false =>
    cases hs : s.scaling with
    | none => simp
    | some sc =>
      obtain ⟨a, b, ha, hb, _⟩ := h2 (by simp [hs])
      simp [ha, hb]
  | true =>
    obtain ⟨mu, hmu, _⟩ := h1 hc
    cases hs : s.scaling with
    | none => simp [hmu]
    | some sc =>
      obtain ⟨a, b, ha, hb, _⟩ := h2 (by simp [hs])
      simp [ha, hb, hmu]

omit [DecidableEq K] in
theorem Sst.transform_steps (s : Sst K) (Y : Snap K) (h : s.isTrained = true) :
    s.transform Y = (do checkShape s.n Y; (← s.centerStep Y) |> s.scaleStep) := by
  simp only [Sst.transform, h, Bool.not_true, Bool.false_eq_true, if_false, bind, Except.bind]

omit [DecidableEq K] in
theorem Sst.centerStep_eq {s : Sst K} {n : Nat} (h : s.Ready n) {Y : Snap K} (hY : Y.len = n) :
    s.centerStep Y = .ok (Y.rowMap fun i y => y - s.center i) := by
  unfold Sst.centerStep Sst.center
  cases hc : s.centering with
  | false =>
    simp only [Bool.false_eq_true, if_false]
    rw [Snap.rowMap_eq_self]
    intro i _ y
    ring
  | true =>
    obtain ⟨mu, hmu, hl⟩ := h.mean hc
    simp only [hmu]
    rw [Snap.op_fits _ (show (Coef.arr mu).Fits Y.len from hl.trans hY.symm)]
    rfl

omit [DecidableEq K] in
theorem Sst.scaleStep_eq {s : Sst K} {n : Nat} (h : s.Ready n) {Y : Snap K} (hY : Y.len = n) :
    s.scaleStep Y = .ok (Y.rowMap fun i y => s.factor i * y + s.offset i) := by
  unfold Sst.scaleStep Sst.factor Sst.offset
  cases hs : s.scaling with
  | none =>
    simp only [Option.isSome_none, Bool.false_eq_true, if_false]
    rw [Snap.rowMap_eq_self]
    intro i _ y
    ring
  | some sc =>
    obtain ⟨a, b, ha, hb, _, _, hfa, hfb, _⟩ := h.scale (by simp [hs])
    simp only [ha, hb, Option.isSome_some, if_true, Option.map_some, Option.getD_some]
    rw [Snap.op_fits _ (hY ▸ hfa)]
    simp only [bind, Except.bind]
    rw [Snap.op_fits _ (by rw [Snap.len_rowMap]; exact hY ▸ hfb), Snap.rowMap_rowMap]
    congr 1
    apply Snap.rowMap_congr
    intro i _ y
    ring

omit [DecidableEq K] in
theorem Sst.factor_ne {s : Sst K} {n : Nat} (h : s.Ready n) {i : Nat} (hi : i < n) :
    s.factor i ≠ 0 := by
  unfold Sst.factor
  cases hs : s.scaling with
  | none => simp
  | some sc =>
    obtain ⟨a, b, ha, hb, _, _, hfa, hfb, h0⟩ := h.scale (by simp [hs])
    simp only [ha, Option.isSome_some, if_true, Option.map_some, Option.getD_some]
    exact Coef.get_ne_zero hfa h0 hi

theorem Sst.inverse_none (s : Sst K) (Y : Snap K) (h : s.isTrained = true) :
    s.inverse Y none = (do checkShape s.n Y; (← s.unscale (s.beta, s.alpha) Y) |> s.uncenter none) := by
  have hp : s.paramsAt none = .ok (s.beta, s.alpha) := by cases hb : s.byrow <;> simp [Sst.paramsAt, hb]
  simp only [Sst.inverse, h, Bool.not_true, Bool.false_eq_true, if_false, bind, Except.bind, pure,
    Except.pure]
  cases hc : checkShape s.n Y with
  | error e => rfl
  | ok u => simp only [hp]

theorem Sst.inverse_some (s : Sst K) (Y : Snap K) (l : Locs) (is : List Int) (h : s.isTrained = true)
    (hl : checkLocs s.n Y.len l = .ok is) :
    s.inverse Y (some l) =
      (do (← s.unscale (← s.paramsAt (some is)) Y) |> s.uncenter (some is)) := by
  simp only [Sst.inverse, h, Bool.not_true, Bool.false_eq_true, if_false, bind, Except.bind, pure,
    Except.pure, hl]

theorem unscale_eq {s : Sst K} {n : Nat} (h : s.Ready n) {Y : Snap K} (hY : Y.len = n) :
    s.unscale (s.beta, s.alpha) Y = .ok (Y.rowMap fun i y => (y - s.offset i) / s.factor i) := by
  unfold Sst.unscale Sst.factor Sst.offset
  cases hs : s.scaling with
  | none =>
    simp only [Option.isSome_none, Bool.false_eq_true, if_false]
    rw [Snap.rowMap_eq_self]
    intro i _ y
    ring
  | some sc =>
    obtain ⟨a, b, ha, hb, _, _, hfa, hfb, h0⟩ := h.scale (by simp [hs])
    simp only [ha, hb, Option.isSome_some, if_true, Option.map_some, Option.getD_some]
    rw [Snap.op_fits _ (hY ▸ hfb)]
    simp only [bind, Except.bind]
    rw [Snap.div_fits (by rw [Snap.len_rowMap]; exact hY ▸ hfa) h0, Snap.rowMap_rowMap]

omit [DecidableEq K] in
theorem uncenter_eq {s : Sst K} {n : Nat} (h : s.Ready n) {Y : Snap K} (hY : Y.len = n) :
    s.uncenter none Y = .ok (Y.rowMap fun i y => y + s.center i) := by
  unfold Sst.uncenter Sst.center
  cases hc : s.centering with
  | false =>
    simp only [Bool.false_eq_true, if_false]
    rw [Snap.rowMap_eq_self]
    intro i _ y
    ring
  | true =>
    obtain ⟨mu, hmu, hl⟩ := h.mean hc
    simp only [hmu]
    rw [Snap.op_fits _ (show (Coef.arr mu).Fits Y.len from hl.trans hY.symm)]
    rfl

omit [DecidableEq K] in
theorem sst_transform_eq {s : Sst K} {n : Nat} (h : s.Ready n) {Y : Snap K} (hY : Y.len = n) :
    s.transform Y = .ok (Y.rowMap fun i y => s.factor i * y + s.const i) := by
  rw [Sst.transform_steps s Y h.trained]
  simp only [h.dim, checkShape_ok hY, bind, Except.bind, Sst.centerStep_eq h hY]
  rw [Sst.scaleStep_eq h (by rw [Snap.len_rowMap, hY]), Snap.rowMap_rowMap]
  congr 1
  apply Snap.rowMap_congr
  intro i _ y
  simp only [Sst.const]
  ring

theorem sst_inverse_eq {s : Sst K} {n : Nat} (h : s.Ready n) {Y : Snap K} (hY : Y.len = n) :
    s.inverse Y none = .ok (Y.rowMap fun i y => (y - s.const i) / s.factor i) := by
  rw [Sst.inverse_none s Y h.trained]
  simp only [h.dim, checkShape_ok hY, bind, Except.bind, unscale_eq h hY]
  rw [uncenter_eq h (by rw [Snap.len_rowMap, hY]), Snap.rowMap_rowMap]
  congr 1
  apply Snap.rowMap_congr
  intro i hi y
  have := Sst.factor_ne h (hY ▸ hi)
  simp only [Sst.const]
  field_simp
  ring

omit [DecidableEq K] in
theorem sst_ddts_eq {s : Sst K} {n : Nat} (h : s.Ready n) {Y : Snap K} (hY : Y.len = n) :
    s.ddts Y = .ok (Y.rowMap fun i y => s.factor i * y) := by
  simp only [Sst.ddts, h.trained, h.dim, checkShape_ok hY, Bool.not_true, Bool.false_eq_true, if_false,
    bind, Except.bind]
  unfold Sst.factor
  cases hs : s.scaling with
  | none =>
    simp only [Option.isSome_none, Bool.false_eq_true, if_false]
    rw [Snap.rowMap_eq_self]
    intro i _ y
    ring
  | some sc =>
    obtain ⟨a, b, ha, hb, _, _, hfa, hfb, _⟩ := h.scale (by simp [hs])
    simp only [ha, Option.isSome_some, if_true, Option.map_some, Option.getD_some]
    rw [Snap.op_fits _ (hY ▸ hfa)]
    congr 1
    apply Snap.rowMap_congr
    intro i _ y
    ring

/-- A trained transformer rejects arrays with a wrong number of rows. -/
theorem sst_reject {s : Sst K} {n : Nat} (h : s.Ready n) {Y : Snap K} (hY : Y.len ≠ n) :
    s.transform Y = .error .value ∧ s.inverse Y none = .error .value := by
  rw [Sst.transform_steps s Y h.trained, Sst.inverse_none s Y h.trained]
  simp only [h.dim, checkShape_bad hY, bind, Except.bind, and_self]

/-- What `inverse_transform` computes at selected locations. -/
theorem sst_inverse_at {s : Sst K} {n : Nat} (h : s.Ready n) (hb : s.byrow = true → s.scaling.isSome)
    {Y : Snap K} {l : Locs} {ix : List Nat} (hl : locate n l = .ok ix) (hY : Y.len = ix.length) :
    s.inverse Y (some l) =
      .ok (Y.rowMap fun j y => (y - s.const (ix.getD j 0)) / s.factor (ix.getD j 0)) := by
  obtain ⟨is, hc, hm, hlen, hix⟩ := locate_eq hl
  rw [Sst.inverse_some s Y l is h.trained (by rw [h.dim]; exact hc _ (hY.trans hlen))]
  have hmem : ∀ j < ix.length, ix.getD j 0 < n := fun j hj => by
    apply hix
    rw [getD_eq_getElem?_getD, getElem?_eq_getElem hj, Option.getD_some]
    exact getElem_mem hj
  have key1 : ∀ ba, s.paramsAt (some is) = .ok ba → s.unscale ba Y =
      .ok (Y.rowMap fun j y => (y - s.offset (ix.getD j 0)) / s.factor (ix.getD j 0)) →
      (do (← s.unscale (← s.paramsAt (some is)) Y) |> s.uncenter (some is)) =
      .ok (Y.rowMap fun j y => (y - s.const (ix.getD j 0)) / s.factor (ix.getD j 0)) := by
    intro ba hba hu
    simp only [hba, hu, bind, Except.bind]
    unfold Sst.uncenter
    have hfin : ∀ j < Y.len, ∀ y, (y - s.offset (ix.getD j 0)) / s.factor (ix.getD j 0) +
        s.center (ix.getD j 0) = (y - s.const (ix.getD j 0)) / s.factor (ix.getD j 0) := by
      intro j hj y
      have := Sst.factor_ne h (hmem j (by omega))
      simp only [Sst.const]
      field_simp
      ring
    cases hcen : s.centering with
    | false =>
      simp only
      congr 1
      apply Snap.rowMap_congr
      intro j hj y
      rw [← hfin j hj y]
      simp [Sst.center, hcen]
    | true =>
      obtain ⟨mu, hmu, hml⟩ := h.mean hcen
      simp only [hmu, fancy_eq hm hml, bind, Except.bind]
      rw [Snap.op_fits _ (by simp [Coef.Fits, hY, Snap.len_rowMap]), Snap.rowMap_rowMap]
      congr 1
      apply Snap.rowMap_congr
      intro j hj y
      rw [← hfin j hj y]
      simp only [Coef.get]
      rw [getD_map_ix _ _ _ (by omega)]
      simp [Sst.center, hcen, hmu]
  cases hbr : s.byrow with
  | false =>
    apply key1 (s.beta, s.alpha) (by simp [Sst.paramsAt, hbr])
    unfold Sst.unscale Sst.factor Sst.offset
    cases hs : s.scaling with
    | none =>
      simp only [Option.isSome_none, Bool.false_eq_true, if_false]
      rw [Snap.rowMap_eq_self]
      intro i _ y
      ring
    | some sc =>
      obtain ⟨a, b, ha, hb, hka, hkb, hfa, hfb, h0⟩ := h.scale (by simp [hs])
      rw [hbr] at hka hkb
      cases a with
      | arr as => simp [Coef.isArr] at hka
      | num a =>
        cases b with
        | arr bs => simp [Coef.isArr] at hkb
        | num b =>
          simp only [ha, hb, Option.isSome_some, if_true, Option.map_some, Option.getD_some]
          rw [Snap.op_fits _ (c := .num b) trivial]
          simp only [bind, Except.bind]
          rw [Snap.div_fits (c := .num a) trivial h0, Snap.rowMap_rowMap]
          rfl
  | true =>
    have hs := hb hbr
    obtain ⟨a, b, ha, hb, hka, hkb, hfa, hfb, h0⟩ := h.scale hs
    rw [hbr] at hka hkb
    cases a with
    | num a => simp [Coef.isArr] at hka
    | arr as =>
      cases b with
      | num b => simp [Coef.isArr] at hkb
      | arr bs =>
        have hfa' : as.length = n := hfa
        have hfb' : bs.length = n := hfb
        apply key1 (some (.arr (ix.map fun i => bs.getD i 0)), some (.arr (ix.map fun i => as.getD i 0)))
        · simp [Sst.paramsAt, hbr, ha, hb, Coef.at, fancy_eq hm hfa', fancy_eq hm hfb', bind, Except.bind,
            pure, Except.pure]
        · unfold Sst.unscale
          obtain ⟨sc, hsc⟩ := Option.isSome_iff_exists.1 hs
          simp only [hsc]
          rw [Snap.op_fits _ (by simp [Coef.Fits, hY])]
          simp only [bind, Except.bind]
          rw [Snap.div_fits (by simp [Coef.Fits, hY, Snap.len_rowMap]), Snap.rowMap_rowMap]
          · congr 1
            apply Snap.rowMap_congr
            intro j hj y
            simp only [Coef.get]
            rw [getD_map_ix _ _ _ (by omega), getD_map_ix _ _ _ (by omega)]
            simp [Sst.offset, Sst.factor, hsc, ha, hb, Coef.get]
          · intro hz
            simp only [Coef.entries, mem_map] at hz
            obtain ⟨i, hi, hz⟩ := hz
            exact Coef.get_ne_zero hfa h0 (hix i hi) hz

section
variable {K : Type} [Field K] [LinearOrder K]

theorem sst_affine (sqrt : K → K) {s : Sst K} {n : Nat} (h : s.Ready n) :
    (sstI sqrt).Affine s n s.factor s.const where
  dim := h.dim
  nz _ hi := Sst.factor_ne h hi
  transform b Y hY := onBuffer_ok (sst_transform_eq h hY)
  ddts b Y hY := onBuffer_ok (sst_ddts_eq h hY)
  inverse b Y hY := by
    simp only [sstI]
    exact onBuffer_ok (f := fun Y => s.inverse Y none) (sst_inverse_eq h hY)
  reject Y b hY := ⟨_, onBuffer_error (sst_reject h hY).1⟩
  rejectInv Y b hY := ⟨.value, by
    simp only [sstI]
    exact onBuffer_error (f := fun Y => s.inverse Y none) (sst_reject h hY).2⟩

theorem sst_affineAt (sqrt : K → K) {s : Sst K} {n : Nat} (h : s.Ready n)
    (hb : s.byrow = true → s.scaling.isSome) : (sstI sqrt).AffineAt s n s.factor s.const := by
  intro b Y l ix hl hY
  simp only [sstI]
  exact onBuffer_ok (f := fun Y => s.inverse Y (some l)) (sst_inverse_at h hb hl hY)

end

end Opinf
