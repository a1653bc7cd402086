import Verif.Props.TransformFit
import Mathlib.Analysis.Real.Sqrt

/-! # C36: scaled training data have the promised statistics -/

namespace Opinf

open List

variable {K : Type} [Field K] [LinearOrder K]

/-! ### Specification -/

/-- The sets of entries that are scaled together: each row, or all entries. -/
def groups (byrow : Bool) (rows : List (List K)) : List (List K) :=
  if byrow then rows else [rows.flatten]

/-- All entries are in `[lo, hi]` and both ends occur. -/
def RangeExactly (lo hi : K) (g : List K) : Prop := (∀ x ∈ g, lo ≤ x ∧ x ≤ hi) ∧ lo ∈ g ∧ hi ∈ g

/-- The largest absolute value is one. -/
def MaxAbsOne (g : List K) : Prop := (∀ x ∈ g, |x| ≤ 1) ∧ ∃ x ∈ g, |x| = 1

/-- The mean is zero. -/
def ZeroMean (g : List K) : Prop := g.sum = 0

/-- The mean of the squares is one. -/
def UnitMeanSquare (g : List K) : Prop := (g.map fun x => x ^ 2).sum = (g.length : K)

/-- Column `j` of a matrix. -/
def columnOf (rows : List (List K)) (j : Nat) : List K := rows.map fun row => row.getD j 0

/-- No snapshot has a Euclidean norm larger than one and some snapshot has norm one. -/
def MaxNormOne (k : Nat) (rows : List (List K)) : Prop :=
  (∀ j < k, ((columnOf rows j).map (· ^ 2)).sum ≤ 1) ∧ ∃ j < k, ((columnOf rows j).map (· ^ 2)).sum = 1

/-- The contract of the square root. -/
def IsSqrt (sqrt : K → K) : Prop := ∀ x, 0 ≤ x → 0 ≤ sqrt x ∧ sqrt x ^ 2 = x

/-! ### Statistics -/

omit [Field K] in
theorem minOf_spec {l : List K} {m : K} (h : minOf l = .ok m) : m ∈ l ∧ ∀ x ∈ l, m ≤ x := by
  cases l with
  | nil => cases h
  | cons a l =>
    simp only [minOf, Except.ok.injEq] at h
    subst h
    induction l generalizing a with
    | nil => simp
    | cons b l ih =>
      obtain ⟨h1, h2⟩ := ih (min a b)
      rw [foldl_cons]
      constructor
      · rcases mem_cons.1 h1 with h | h
        · rcases min_choice a b with e | e
          · rw [h, e]; simp
          · rw [h, e]; simp
        · exact mem_cons_of_mem _ (mem_cons_of_mem _ h)
      · intro x hx
        have h0 := h2 (min a b) (by simp)
        rcases mem_cons.1 hx with rfl | hx
        · exact h0.trans (min_le_left _ _)
        · rcases mem_cons.1 hx with rfl | hx
          · exact h0.trans (min_le_right _ _)
          · exact h2 x (mem_cons_of_mem _ hx)

omit [Field K] in
theorem maxOf_spec {l : List K} {m : K} (h : maxOf l = .ok m) : m ∈ l ∧ ∀ x ∈ l, x ≤ m := by
  cases l with
  | nil => cases h
  | cons a l =>
    simp only [maxOf, Except.ok.injEq] at h
    subst h
    induction l generalizing a with
    | nil => simp
    | cons b l ih =>
      obtain ⟨h1, h2⟩ := ih (max a b)
      rw [foldl_cons]
      constructor
      · rcases mem_cons.1 h1 with h | h
        · rcases max_choice a b with e | e
          · rw [h, e]; simp
          · rw [h, e]; simp
        · exact mem_cons_of_mem _ (mem_cons_of_mem _ h)
      · intro x hx
        have h0 := h2 (max a b) (by simp)
        rcases mem_cons.1 hx with rfl | hx
        · exact (le_max_left _ _).trans h0
        · rcases mem_cons.1 hx with rfl | hx
          · exact (le_max_right _ _).trans h0
          · exact h2 x (mem_cons_of_mem _ hx)

theorem maxAbsOf_spec {l : List K} {m : K} (h : maxAbsOf l = .ok m) :
    (∃ x ∈ l, |x| = m) ∧ ∀ x ∈ l, |x| ≤ m := by
  obtain ⟨h1, h2⟩ := maxOf_spec h
  obtain ⟨x, hx, e⟩ := mem_map.1 h1
  exact ⟨⟨x, hx, e⟩, fun y hy => h2 _ (mem_map.2 ⟨y, hy, rfl⟩)⟩

omit [LinearOrder K] in
theorem sum_affine (a b : K) (l : List K) :
    (l.map fun y => a * y + b).sum = a * l.sum + l.length * b := by
  induction l with
  | nil => simp
  | cons x l ih => simp only [map_cons, sum_cons, ih, length_cons, Nat.cast_succ]; ring

variable [IsStrictOrderedRing K]

omit [LinearOrder K] [IsStrictOrderedRing K] in
theorem meanOf_ne {l : List K} {mu : K} (h : meanOf l = .ok mu) : l ≠ [] ∧ mu = l.sum / l.length := by
  unfold meanOf at h
  split at h
  · cases h
  · rename_i he
    simp only [Except.ok.injEq] at h
    exact ⟨by simpa using he, h.symm⟩

theorem meanOf_sum {l : List K} {mu : K} (h : meanOf l = .ok mu) : l.length * mu = l.sum := by
  obtain ⟨h1, rfl⟩ := meanOf_ne h
  have : (l.length : K) ≠ 0 := by
    rw [Nat.cast_ne_zero]
    simpa using h1
  field_simp

/-! ### The result in terms of the learned parameters -/

omit [LinearOrder K] [Field K] [IsStrictOrderedRing K] in
theorem group_mem_groups {byrow : Bool} {rows : List (List K)} {g : List K} (hg : g ∈ groups byrow rows)
    (h : byrow = false → rows ≠ []) : ∃ i < rows.length, g = group byrow rows i := by
  cases byrow with
  | true =>
    obtain ⟨i, hi, rfl⟩ := mem_iff_getElem.1 (show g ∈ rows from hg)
    exact ⟨i, hi, by simp [group, getD_eq_getElem?_getD, hi]⟩
  | false =>
    have : g = rows.flatten := by simpa [groups] using hg
    exact ⟨0, length_pos_of_ne_nil (h rfl), by simp [group, this]⟩

omit [IsStrictOrderedRing K] in
theorem learn_nonempty {sqrt : K → K} {sc : Scaling} {k : Nat} {r : Coef K × Coef K}
    (hsc : sc ≠ .maxnorm ∧ sc ≠ .maxnormsym) : learnScaling sqrt sc false k [] ≠ .ok r := by
  cases sc <;> simp_all [learnScaling, stat, meanOf, minOf, maxOf, maxAbsOf, bind, Except.bind]

/-- Each group of the result is the affine image of a group of the centered data. -/
theorem fit_groups {sqrt : K → K} {s s' : Sst K} {k : Nat} {rows : List (List K)} {Z Y' : Snap K} {b : Bool}
    {sc : Scaling} (hf : (sstI sqrt).fitTransform s b (.mat k rows) = (s', Y', .ok Z))
    (hs : s.scaling = some sc) (hsc : sc ≠ .maxnorm ∧ sc ≠ .maxnormsym) :
    ∃ zrows, Z = .mat k zrows ∧ ∀ g ∈ groups s.byrow zrows, ∃ y α β, Learned sqrt sc y α β ∧
      y ∈ groups s.byrow (centered s' rows) ∧ g = y.map fun x => α * x + β := by
  simp only [sstI, Prod.mk.injEq] at hf
  have hok := sst_fit_ok (sqrt := sqrt) (s := s) (s' := s') (Z := Z)
    (Prod.ext hf.1 (onBuffer_eq_ok hf.2))
  obtain ⟨A, B, hA, hB, hl⟩ := hok.learned sc hs
  obtain ⟨q1, q2, q3, q4, q5, q6⟩ := learn_ok hl
  have hcl : (centered s' rows).length = rows.length := by simp [centered]
  have hfac : ∀ i, s'.factor i = A.get i := fun i => by
    simp [Sst.factor, hok.scaling, hs, hA]
  have hoff : ∀ i, s'.offset i = B.get i := fun i => by
    simp [Sst.offset, hok.scaling, hs, hB]
  refine ⟨(centered s' rows).mapIdx fun i row => row.map fun y => A.get i * y + B.get i, ?_, ?_⟩
  · rw [hok.result]
    have : Snap.mat k ((centered s' rows).mapIdx fun i row => row.map fun y => A.get i * y + B.get i) =
        ((Snap.mat k rows).rowMap fun i y => y - s'.center i).rowMap fun i y => A.get i * y + B.get i := rfl
    rw [this, Snap.rowMap_rowMap]
    apply Snap.rowMap_congr
    intro i _ y
    rw [hfac, hoff]
  · intro g hg
    have hne : s.byrow = false → centered s' rows ≠ [] := by
      intro hb h0
      rw [hb, h0] at hl
      exact learn_nonempty hsc hl
    obtain ⟨i, hi, rfl⟩ := group_mem_groups hg (fun hb h0 => hne hb (by simpa using h0))
    rw [length_mapIdx] at hi
    refine ⟨group s.byrow (centered s' rows) i, A.get i, B.get i, q6 i hi, ?_, ?_⟩
    · cases hb : s.byrow with
      | true => simp [groups, group, getD_eq_getElem?_getD, hi]
      | false => simp [groups, group]
    · exact group_rowMap s.byrow (centered s' rows) (fun i y => A.get i * y + B.get i)
        (fun hb i => by rw [Coef.get_num (q1.trans hb) i, Coef.get_num (q2.trans hb) i]) i hi

/-! ### Theorems -/

/-- C36: after calibration with `minmax` the training data have range exactly `[0, 1]` (in each row if
`byrow`), whether or not they are centered first. -/
theorem C36_minmax {sqrt : K → K} {s s' : Sst K} {k : Nat} {rows : List (List K)} {Z Y' : Snap K} {b : Bool}
    (hf : (sstI sqrt).fitTransform s b (.mat k rows) = (s', Y', .ok Z)) (hs : s.scaling = some .minmax) :
    ∃ zrows, Z = .mat k zrows ∧ ∀ g ∈ groups s.byrow zrows, RangeExactly 0 1 g := by
  obtain ⟨zrows, hZ, hg⟩ := fit_groups hf hs (by simp)
  refine ⟨zrows, hZ, fun g hgm => ?_⟩
  obtain ⟨y, α, β, hl, _, rfl⟩ := hg g hgm
  obtain ⟨lo, hi, h1, h2, h3, rfl, rfl⟩ := hl.minmax rfl
  obtain ⟨m1, m2⟩ := minOf_spec h1
  obtain ⟨n1, n2⟩ := maxOf_spec h2
  have hpos : 0 < hi - lo := lt_of_le_of_ne (sub_nonneg.2 (m2 _ n1)) (Ne.symm h3)
  have hform : ∀ x, 1 / (hi - lo) * x + -lo * (1 / (hi - lo)) = (x - lo) / (hi - lo) := fun x => by ring
  refine ⟨?_, ?_, ?_⟩
  · intro z hz
    obtain ⟨x, hx, rfl⟩ := mem_map.1 hz
    simp only [hform]
    exact ⟨div_nonneg (sub_nonneg.2 (m2 x hx)) hpos.le,
      (div_le_one hpos).2 (sub_le_sub_right (n2 x hx) lo)⟩
  · exact mem_map.2 ⟨lo, m1, by rw [hform]; simp⟩
  · exact mem_map.2 ⟨hi, n1, by rw [hform]; exact div_self h3⟩

/-- C36: after calibration with `minmaxsym` the training data have range exactly `[-1, 1]`. -/
theorem C36_minmaxsym {sqrt : K → K} {s s' : Sst K} {k : Nat} {rows : List (List K)} {Z Y' : Snap K}
    {b : Bool} (hf : (sstI sqrt).fitTransform s b (.mat k rows) = (s', Y', .ok Z))
    (hs : s.scaling = some .minmaxsym) :
    ∃ zrows, Z = .mat k zrows ∧ ∀ g ∈ groups s.byrow zrows, RangeExactly (-1) 1 g := by
  obtain ⟨zrows, hZ, hg⟩ := fit_groups hf hs (by simp)
  refine ⟨zrows, hZ, fun g hgm => ?_⟩
  obtain ⟨y, α, β, hl, _, rfl⟩ := hg g hgm
  obtain ⟨lo, hi, h1, h2, h3, rfl, rfl⟩ := hl.minmaxsym rfl
  obtain ⟨m1, m2⟩ := minOf_spec h1
  obtain ⟨n1, n2⟩ := maxOf_spec h2
  have hpos : 0 < hi - lo := lt_of_le_of_ne (sub_nonneg.2 (m2 _ n1)) (Ne.symm h3)
  have hform : ∀ x, 2 / (hi - lo) * x + (-lo * (2 / (hi - lo)) - 1) = 2 * ((x - lo) / (hi - lo)) - 1 :=
    fun x => by ring
  refine ⟨?_, ?_, ?_⟩
  · intro z hz
    obtain ⟨x, hx, rfl⟩ := mem_map.1 hz
    simp only [hform]
    have e1 := div_nonneg (sub_nonneg.2 (m2 x hx)) hpos.le
    have e2 := (div_le_one hpos).2 (sub_le_sub_right (n2 x hx) lo)
    constructor <;> linarith
  · exact mem_map.2 ⟨lo, m1, by rw [hform]; simp⟩
  · exact mem_map.2 ⟨hi, n1, by rw [hform, div_self h3]; norm_num⟩

/-- C36: after calibration with `maxabs` the largest absolute value is exactly one. -/
theorem C36_maxabs {sqrt : K → K} {s s' : Sst K} {k : Nat} {rows : List (List K)} {Z Y' : Snap K} {b : Bool}
    (hf : (sstI sqrt).fitTransform s b (.mat k rows) = (s', Y', .ok Z)) (hs : s.scaling = some .maxabs) :
    ∃ zrows, Z = .mat k zrows ∧ ∀ g ∈ groups s.byrow zrows, MaxAbsOne g := by
  obtain ⟨zrows, hZ, hg⟩ := fit_groups hf hs (by simp)
  refine ⟨zrows, hZ, fun g hgm => ?_⟩
  obtain ⟨y, α, β, hl, _, rfl⟩ := hg g hgm
  obtain ⟨m, h1, h3, rfl, rfl⟩ := hl.maxabs rfl
  obtain ⟨⟨x0, hx0, e0⟩, m2⟩ := maxAbsOf_spec h1
  have hpos : 0 < m := lt_of_le_of_ne (e0 ▸ abs_nonneg x0) (Ne.symm h3)
  have hform : ∀ x, |1 / m * x + 0| = |x| / m := fun x => by
    rw [add_zero, one_div, inv_mul_eq_div, abs_div, abs_of_pos hpos]
  refine ⟨?_, ?_⟩
  · intro z hz
    obtain ⟨x, hx, rfl⟩ := mem_map.1 hz
    rw [hform]
    exact (div_le_one hpos).2 (m2 x hx)
  · exact ⟨_, mem_map.2 ⟨x0, hx0, rfl⟩, by rw [hform, e0]; exact div_self h3⟩

/-- C36: after calibration with `maxabssym` the mean is zero and the largest absolute value is one. -/
theorem C36_maxabssym {sqrt : K → K} {s s' : Sst K} {k : Nat} {rows : List (List K)} {Z Y' : Snap K}
    {b : Bool} (hf : (sstI sqrt).fitTransform s b (.mat k rows) = (s', Y', .ok Z))
    (hs : s.scaling = some .maxabssym) :
    ∃ zrows, Z = .mat k zrows ∧ ∀ g ∈ groups s.byrow zrows, MaxAbsOne g ∧ ZeroMean g := by
  obtain ⟨zrows, hZ, hg⟩ := fit_groups hf hs (by simp)
  refine ⟨zrows, hZ, fun g hgm => ?_⟩
  obtain ⟨y, α, β, hl, _, rfl⟩ := hg g hgm
  obtain ⟨mu, m, h0, h1, h3, rfl, rfl⟩ := hl.maxabssym rfl
  obtain ⟨⟨x0, hx0, e0⟩, m2⟩ := maxAbsOf_spec h1
  have hpos : 0 < m := lt_of_le_of_ne (e0 ▸ abs_nonneg x0) (Ne.symm h3)
  have hform : ∀ x, |1 / m * x + -mu * (1 / m)| = |x - mu| / m := fun x => by
    rw [show 1 / m * x + -mu * (1 / m) = (x - mu) / m by ring, abs_div, abs_of_pos hpos]
  refine ⟨⟨?_, ?_⟩, ?_⟩
  · intro z hz
    obtain ⟨x, hx, rfl⟩ := mem_map.1 hz
    rw [hform]
    exact (div_le_one hpos).2 (m2 _ (mem_map.2 ⟨x, hx, rfl⟩))
  · obtain ⟨x1, hx1, rfl⟩ := mem_map.1 hx0
    exact ⟨_, mem_map.2 ⟨x1, hx1, rfl⟩, by rw [hform, e0]; exact div_self h3⟩
  · rw [ZeroMean, sum_affine, ← meanOf_sum h0]
    ring

/-- C36: after calibration with `standard` the mean is zero and the mean square is one. -/
theorem C36_standard {sqrt : K → K} (hsq : IsSqrt sqrt) {s s' : Sst K} {k : Nat} {rows : List (List K)}
    {Z Y' : Snap K} {b : Bool} (hf : (sstI sqrt).fitTransform s b (.mat k rows) = (s', Y', .ok Z))
    (hs : s.scaling = some .standard) :
    ∃ zrows, Z = .mat k zrows ∧ ∀ g ∈ groups s.byrow zrows, ZeroMean g ∧ UnitMeanSquare g := by
  obtain ⟨zrows, hZ, hg⟩ := fit_groups hf hs (by simp)
  refine ⟨zrows, hZ, fun g hgm => ?_⟩
  obtain ⟨y, α, β, hl, _, rfl⟩ := hg g hgm
  obtain ⟨mu, sg, h0, h1, h3, rfl, rfl⟩ := hl.standard rfl
  constructor
  · rw [ZeroMean, sum_affine, ← meanOf_sum h0]
    ring
  · simp only [stdOf, h0, bind, Except.bind, pure, Except.pure] at h1
    split at h1
    · cases h1
    rename_i v hv
    simp only [Except.ok.injEq] at h1
    have hv' := meanOf_sum hv
    rw [length_map] at hv'
    have hnn : 0 ≤ (y.map fun x => (x - mu) ^ 2).sum :=
      List.sum_nonneg fun x hx => by
        obtain ⟨z, _, rfl⟩ := mem_map.1 hx
        exact sq_nonneg _
    have hl : (0 : K) < y.length := by
      have := (meanOf_ne h0).1
      exact_mod_cast length_pos_of_ne_nil this
    have hvn : 0 ≤ v := by
      rw [← hv'] at hnn
      exact nonneg_of_mul_nonneg_right hnn hl
    have hsg : sg ^ 2 = v := by rw [← h1]; exact (hsq v hvn).2
    rw [UnitMeanSquare, length_map, map_map]
    have e : (y.map ((· ^ 2) ∘ fun x => 1 / sg * x + -mu * (1 / sg))).sum =
        (1 / sg) ^ 2 * (y.map fun x => (x - mu) ^ 2).sum := by
      rw [← List.sum_map_mul_left]
      congr 1
      apply map_congr_left
      intro x _
      simp only [Function.comp_apply]
      ring
    rw [e, ← hv', ← hsg]
    field_simp

/-- C36: with centering and no scaling every row of the training data has mean zero. -/
theorem C36_centering {sqrt : K → K} {s s' : Sst K} {k : Nat} {rows : List (List K)} {Z Y' : Snap K}
    {b : Bool} (hf : (sstI sqrt).fitTransform s b (.mat k rows) = (s', Y', .ok Z))
    (hc : s.centering = true) (hs : s.scaling = none) :
    ∃ zrows, Z = .mat k zrows ∧ zrows.length = rows.length ∧ ∀ g ∈ zrows, ZeroMean g := by
  simp only [sstI, Prod.mk.injEq] at hf
  have hok := sst_fit_ok (sqrt := sqrt) (s := s) (s' := s') (Z := Z)
    (Prod.ext hf.1 (onBuffer_eq_ok hf.2))
  obtain ⟨mu, hmu, hm⟩ := hok.mean hc
  refine ⟨rows.mapIdx fun i (row : List K) => row.map fun y => s'.factor i * (y - s'.center i) + s'.offset i,
    hok.result, by simp, ?_⟩
  intro g hg
  obtain ⟨i, hi, rfl⟩ := mem_mapIdx.1 hg
  have e1 : s'.factor i = 1 := by simp [Sst.factor, hok.scaling, hs]
  have e2 : s'.offset i = 0 := by simp [Sst.offset, hok.scaling, hs]
  have e3 : s'.center i = mu.getD i 0 := by simp [Sst.center, hok.centering, hc, hmu]
  have hmi := mapM_ok_getD [] 0 hm i hi
  rw [getD_eq_getElem?_getD, getElem?_eq_getElem hi, Option.getD_some] at hmi
  rw [ZeroMean, e1, e2, e3]
  have : (fun y => 1 * (y - mu.getD i 0) + 0) = fun y : K => 1 * y + -(mu.getD i 0) := by
    funext y; ring
  rw [this, sum_affine, ← meanOf_sum hmi]
  ring

/-- C36: scaling by row after centering keeps the row means zero for `maxabs` and `standard`. -/
theorem C36_centering_maxabs {sqrt : K → K} {s s' : Sst K} {k : Nat} {rows : List (List K)} {Z Y' : Snap K}
    {b : Bool} (hf : (sstI sqrt).fitTransform s b (.mat k rows) = (s', Y', .ok Z))
    (hc : s.centering = true) (hs : s.scaling = some .maxabs) :
    ∃ zrows, Z = .mat k zrows ∧ zrows.length = rows.length ∧ ∀ g ∈ zrows, ZeroMean g := by
  simp only [sstI, Prod.mk.injEq] at hf
  have hok := sst_fit_ok (sqrt := sqrt) (s := s) (s' := s') (Z := Z)
    (Prod.ext hf.1 (onBuffer_eq_ok hf.2))
  obtain ⟨mu, hmu, hm⟩ := hok.mean hc
  refine ⟨rows.mapIdx fun i (row : List K) => row.map fun y => s'.factor i * (y - s'.center i) + s'.offset i,
    hok.result, by simp, ?_⟩
  intro g hg
  obtain ⟨i, hi, rfl⟩ := mem_mapIdx.1 hg
  obtain ⟨A, B, hA, hB, hl⟩ := hok.learned _ hs
  obtain ⟨_, _, _, _, _, q6⟩ := learn_ok hl
  obtain ⟨_, _, _, _, hb0⟩ := (q6 i (by simpa [centered] using hi)).maxabs rfl
  have e2 : s'.offset i = 0 := by simp [Sst.offset, hok.scaling, hs, hB, hb0]
  have e3 : s'.center i = mu.getD i 0 := by simp [Sst.center, hok.centering, hc, hmu]
  have hmi := mapM_ok_getD [] 0 hm i hi
  rw [getD_eq_getElem?_getD, getElem?_eq_getElem hi, Option.getD_some] at hmi
  rw [ZeroMean, e2, e3]
  have : (fun y => s'.factor i * (y - mu.getD i 0) + 0) =
      fun y : K => s'.factor i * y + -(s'.factor i * mu.getD i 0) := by
    funext y; ring
  rw [this, sum_affine, ← meanOf_sum hmi]
  ring

theorem maxColNorm_spec {sqrt : K → K} (hsq : IsSqrt sqrt) {k : Nat} {rows : List (List K)} {m : K}
    (h : maxColNorm sqrt k rows = .ok m) (h0 : m ≠ 0) :
    0 < m ∧ (∀ j < k, ((columnOf rows j).map (· ^ 2)).sum ≤ m ^ 2) ∧
      ∃ j < k, ((columnOf rows j).map (· ^ 2)).sum = m ^ 2 := by
  obtain ⟨h1, h2⟩ := maxOf_spec h
  have hcol : ∀ j, (rows.map fun row => row.getD j 0 ^ 2).sum = ((columnOf rows j).map (· ^ 2)).sum := by
    intro j
    rw [columnOf, map_map]
    rfl
  have hnn : ∀ j, 0 ≤ ((columnOf rows j).map (· ^ 2)).sum := fun j =>
    List.sum_nonneg fun x hx => by
      obtain ⟨z, _, rfl⟩ := mem_map.1 hx
      exact sq_nonneg _
  obtain ⟨j, hj, e⟩ := mem_map.1 h1
  rw [hcol] at e
  have hm0 : 0 ≤ m := e ▸ (hsq _ (hnn j)).1
  refine ⟨lt_of_le_of_ne hm0 (Ne.symm h0), fun i hi => ?_, j, by simpa using hj, ?_⟩
  · have := h2 (sqrt ((columnOf rows i).map (· ^ 2)).sum) (mem_map.2 ⟨i, by simpa using hi, by rw [hcol]⟩)
    obtain ⟨s0, s1⟩ := hsq _ (hnn i)
    rw [← s1]
    exact pow_le_pow_left₀ s0 this 2
  · rw [← e, (hsq _ (hnn j)).2]

/-- C36: after calibration with `maxnorm` or `maxnormsym` the largest Euclidean norm of a snapshot is one. -/
theorem C36_maxnorm {sqrt : K → K} (hsq : IsSqrt sqrt) {s s' : Sst K} {k : Nat} {rows : List (List K)}
    {Z Y' : Snap K} {b : Bool} (hw : ∀ row ∈ rows, row.length = k)
    (hf : (sstI sqrt).fitTransform s b (.mat k rows) = (s', Y', .ok Z))
    (hs : s.scaling = some .maxnorm ∨ s.scaling = some .maxnormsym) :
    ∃ zrows, Z = .mat k zrows ∧ MaxNormOne k zrows := by
  simp only [sstI, Prod.mk.injEq] at hf
  have hok := sst_fit_ok (sqrt := sqrt) (s := s) (s' := s') (Z := Z)
    (Prod.ext hf.1 (onBuffer_eq_ok hf.2))
  have hcw : ∀ row ∈ centered s' rows, row.length = k := by
    intro row hr
    obtain ⟨i, hi, rfl⟩ := mem_mapIdx.1 hr
    simpa using hw _ (getElem_mem hi)
  -- one factor and one mean for all entries
  suffices hmain : ∃ a mu m, maxColNorm sqrt k ((centered s' rows).map fun row => row.map (· - mu)) = .ok m ∧
      m ≠ 0 ∧ a = 1 / m ∧ (∀ i, s'.factor i = a) ∧ ∀ i, s'.offset i = -mu * a by
    obtain ⟨a, mu, m, hm, hm0, rfl, hfac, hoff⟩ := hmain
    obtain ⟨hpos, hle, j, hj, he⟩ := maxColNorm_spec hsq hm hm0
    have hzr : Z = .mat k ((centered s' rows).map fun row => row.map fun y => (y - mu) / m) := by
      have e : Snap.mat k ((centered s' rows).map fun row => row.map fun y => (y - mu) / m) =
          ((Snap.mat k rows).rowMap fun i y => y - s'.center i).rowMap fun _ y => (y - mu) / m := by
        simp only [Snap.rowMap, centered, Snap.mat.injEq, true_and]
        apply List.ext_getElem <;> simp
      rw [e, Snap.rowMap_rowMap, hok.result]
      apply Snap.rowMap_congr
      intro i _ y
      rw [hfac, hoff]
      ring
    have hcol : ∀ j < k, ((columnOf ((centered s' rows).map fun row => row.map fun y => (y - mu) / m)
        j).map (· ^ 2)).sum =
        ((columnOf ((centered s' rows).map fun row => row.map (· - mu)) j).map (· ^ 2)).sum / m ^ 2 := by
      intro j hj
      rw [div_eq_mul_inv, mul_comm, ← List.sum_map_mul_left]
      simp only [columnOf, map_map]
      congr 1
      apply map_congr_left
      intro row hr
      have hl : j < row.length := by rw [hcw row hr]; exact hj
      simp only [Function.comp_apply, getD_eq_getElem?_getD, getElem?_map, getElem?_eq_getElem hl,
        Option.map_some, Option.getD_some]
      field_simp
    have hm2 : (0 : K) < m ^ 2 := by positivity
    refine ⟨_, hzr, fun i hi => ?_, j, hj, ?_⟩
    · rw [hcol i hi]
      exact (div_le_one hm2).2 (hle i hi)
    · rw [hcol j hj, he, div_self hm2.ne']
  rcases hs with hs | hs
  · obtain ⟨A, B, hA, hB, hl⟩ := hok.learned _ hs
    cases hb : s.byrow with
    | true => simp [learnScaling, hb] at hl
    | false =>
      simp only [learnScaling, hb, Bool.false_eq_true, if_false, bind, Except.bind, pure, Except.pure] at hl
      split at hl
      · cases hl
      rename_i m hm
      split at hl
      · cases hl
      rename_i a' ha
      simp only [Except.ok.injEq, Prod.mk.injEq] at hl
      obtain ⟨rfl, rfl⟩ := hl
      obtain ⟨z, _, _, g3, _⟩ := recip_ok ha
      have hid : ((centered s' rows).map fun row => row.map (· - (0 : K))) = centered s' rows := by
        simp
      refine ⟨1 / m, 0, m, by rw [hid]; exact hm, ?_, rfl, fun i => ?_, fun i => ?_⟩
      · simpa [Coef.entries, eq_comm] using z
      · have := g3 (i + 1) i trivial (by omega)
        simp only [Sst.factor, hok.scaling, hs, hA, Option.isSome_some, if_true, Option.map_some,
          Option.getD_some, this]
        rfl
      · simp [Sst.offset, hok.scaling, hs, hB, Coef.get]
  · obtain ⟨A, B, hA, hB, hl⟩ := hok.learned _ hs
    cases hb : s.byrow with
    | true => simp [learnScaling, hb] at hl
    | false =>
      simp only [learnScaling, hb, Bool.false_eq_true, if_false, bind, Except.bind, pure, Except.pure] at hl
      split at hl
      · cases hl
      rename_i mu hmu
      split at hl
      · cases hl
      rename_i m hm
      split at hl
      · cases hl
      rename_i a' ha
      simp only [Except.ok.injEq, Prod.mk.injEq] at hl
      obtain ⟨rfl, rfl⟩ := hl
      obtain ⟨z, k3, f3, g3, _⟩ := recip_ok ha
      refine ⟨1 / m, mu, m, hm, ?_, rfl, fun i => ?_, fun i => ?_⟩
      · simpa [Coef.entries, eq_comm] using z
      · have := g3 (i + 1) i trivial (by omega)
        simp only [Sst.factor, hok.scaling, hs, hA, Option.isSome_some, if_true, Option.map_some,
          Option.getD_some, this]
        rfl
      · have := g3 (i + 1) i trivial (by omega)
        have hk : (Coef.num mu).isArr = a'.isArr := by rw [k3]; rfl
        simp only [Sst.offset, hok.scaling, hs, hB, Option.isSome_some, if_true, Option.map_some,
          Option.getD_some]
        rw [Coef.get_zip (n := i + 1) _ hk trivial (f3 _ trivial) (by omega), this]
        rfl

/-! ### Which data can be scaled -/

omit [Field K] [LinearOrder K] [IsStrictOrderedRing K] in
theorem mapM_exists {α β : Type} {f : α → Except Err β} {l : List α} (h : ∀ x ∈ l, ∃ y, f x = .ok y) :
    ∃ r, l.mapM f = .ok r := by
  induction l with
  | nil => exact ⟨[], rfl⟩
  | cons a l ih =>
    obtain ⟨y, hy⟩ := h a (by simp)
    obtain ⟨r, hr⟩ := ih fun x hx => h x (mem_cons_of_mem _ hx)
    exact ⟨y :: r, by simp [mapM_cons, hy, hr, bind, Except.bind, pure, Except.pure]⟩

omit [Field K] [LinearOrder K] [IsStrictOrderedRing K] in
theorem stat_exists {G : List K → Except Err K} {byrow : Bool} {rows : List (List K)}
    (h : ∀ g ∈ groups byrow rows, ∃ v, G g = .ok v) : ∃ c, stat G byrow rows = .ok c := by
  cases byrow with
  | true =>
    obtain ⟨r, hr⟩ := mapM_exists (f := G) (l := rows) fun x hx => h x hx
    exact ⟨.arr r, by simp [stat, hr, bind, Except.bind, pure, Except.pure]⟩
  | false =>
    obtain ⟨v, hv⟩ := h rows.flatten (by simp [groups])
    exact ⟨.num v, by simp [stat, hv, bind, Except.bind, pure, Except.pure]⟩

omit [LinearOrder K] [IsStrictOrderedRing K] in
theorem mem_entries {c : Coef K} {n : Nat} {x : K} (hF : c.Fits n) (h : x ∈ c.entries) :
    (∃ i < n, x = c.get i) ∨ (c.isArr = false ∧ x = c.get 0) := by
  cases c with
  | num a => right; exact ⟨rfl, by simpa [Coef.entries, Coef.get] using h⟩
  | arr l =>
    left
    obtain ⟨i, hi, rfl⟩ := mem_iff_getElem.1 (show x ∈ l from h)
    refine ⟨i, by have : l.length = n := hF; omega, ?_⟩
    simp [Coef.get, getD_eq_getElem?_getD, hi]

omit [Field K] [LinearOrder K] [IsStrictOrderedRing K] in
theorem group_in_groups {byrow : Bool} {rows : List (List K)} {i : Nat} (hi : i < rows.length) :
    group byrow rows i ∈ groups byrow rows := by
  cases byrow with
  | true => simp [groups, group, getD_eq_getElem?_getD, hi]
  | false => simp [groups, group]

/-- Without centering, calibration by `minmax` or `minmaxsym` gives finite results exactly when no group is
constant; in the other cases the code divides by zero (or takes the minimum of nothing). -/
theorem learn_minmax_iff {sqrt : K → K} {sc : Scaling} (hsc : sc = .minmax ∨ sc = .minmaxsym) {byrow : Bool}
    {k : Nat} {rows : List (List K)} :
    (∃ r, learnScaling sqrt sc byrow k rows = .ok r) ↔
      ∀ g ∈ groups byrow rows, ∃ x ∈ g, ∃ y ∈ g, x ≠ y := by
  constructor
  · rintro ⟨⟨a, b⟩, hl⟩ g hg
    have hne : byrow = false → rows ≠ [] := by
      rintro rfl rfl
      exact learn_nonempty (by rcases hsc with rfl | rfl <;> simp) hl
    obtain ⟨i, hi, rfl⟩ := group_mem_groups hg hne
    have hL := (learn_ok hl).2.2.2.2.2 i hi
    have : ∃ lo hi', minOf (group byrow rows i) = .ok lo ∧ maxOf (group byrow rows i) = .ok hi' ∧
        hi' - lo ≠ 0 := by
      rcases hsc with rfl | rfl
      · obtain ⟨lo, hi', h1, h2, h3, _⟩ := hL.minmax rfl
        exact ⟨lo, hi', h1, h2, h3⟩
      · obtain ⟨lo, hi', h1, h2, h3, _⟩ := hL.minmaxsym rfl
        exact ⟨lo, hi', h1, h2, h3⟩
    obtain ⟨lo, hi', h1, h2, h3⟩ := this
    exact ⟨hi', (maxOf_spec h2).1, lo, (minOf_spec h1).1, sub_ne_zero.1 h3⟩
  · intro h
    have hmin : ∀ g ∈ groups byrow rows, ∃ v, minOf g = .ok v := fun g hg => by
      obtain ⟨x, hx, _⟩ := h g hg
      cases g with
      | nil => cases hx
      | cons a g => exact ⟨_, rfl⟩
    have hmax : ∀ g ∈ groups byrow rows, ∃ v, maxOf g = .ok v := fun g hg => by
      obtain ⟨x, hx, _⟩ := h g hg
      cases g with
      | nil => cases hx
      | cons a g => exact ⟨_, rfl⟩
    obtain ⟨lo, hlo⟩ := stat_exists hmin
    obtain ⟨hi, hhi⟩ := stat_exists hmax
    obtain ⟨l1, l2, l3, l4⟩ := stat_ok hlo
    obtain ⟨r1, r2, r3, r4⟩ := stat_ok hhi
    have hk : hi.isArr = lo.isArr := r1.trans l1.symm
    have hdiff : ∀ g lo hi, g ∈ groups byrow rows → minOf g = .ok lo → maxOf g = .ok hi → hi - lo ≠ 0 := by
      intro g lo hi hg h1 h2 h0
      obtain ⟨x, hx, y, hy, hxy⟩ := h g hg
      have e := sub_eq_zero.1 h0
      apply hxy
      have a1 := (minOf_spec h1).2 x hx
      have a2 := (minOf_spec h1).2 y hy
      have a3 := (maxOf_spec h2).2 x hx
      have a4 := (maxOf_spec h2).2 y hy
      rw [e] at a3 a4
      exact (le_antisymm a3 a1).trans (le_antisymm a2 a4)
    have h0 : (0 : K) ∉ (hi.zip (· - ·) lo).entries := by
      intro hmem
      rcases mem_entries (Coef.fits_zip _ hk r2 l2).1 hmem with ⟨i, hi', e⟩ | ⟨hA, e⟩
      · rw [Coef.get_zip _ hk r2 l2 hi'] at e
        exact hdiff _ _ _ (group_in_groups hi') (l3 i hi') (r3 i hi') e.symm
      · cases byrow with
        | true =>
          rw [(Coef.fits_zip _ hk r2 l2).2, r1] at hA
          cases hA
        | false =>
          have e' : (hi.zip (· - ·) lo).get 0 = hi.get 0 - lo.get 0 := by
            cases hi with
            | arr _ => cases r1
            | num _ => cases lo with
              | arr _ => cases l1
              | num _ => rfl
          rw [e'] at e
          exact hdiff _ _ _ (by simp [groups]) (l4 rfl) (r4 rfl) e.symm
    rcases hsc with rfl | rfl
    · simp only [learnScaling, hlo, hhi, bind, Except.bind, Coef.recip, if_neg h0, pure, Except.pure]
      exact ⟨_, rfl⟩
    · simp only [learnScaling, hlo, hhi, bind, Except.bind, Coef.recip, if_neg h0, pure, Except.pure]
      exact ⟨_, rfl⟩

/-- C36: without centering, calibration by `minmax` or `minmaxsym` succeeds for exactly the data sets in
which no group of entries that is scaled together is constant. -/
theorem C36_minmax_applies_iff_nonconstant {sqrt : K → K} {s : Sst K} (hc : s.centering = false)
    (hs : s.scaling = some .minmax ∨ s.scaling = some .minmaxsym) {k : Nat} {rows : List (List K)} {b : Bool} :
    (∃ s' Y' Z, (sstI sqrt).fitTransform s b (.mat k rows) = (s', Y', .ok Z)) ↔
      ∀ g ∈ groups s.byrow rows, ∃ x ∈ g, ∃ y ∈ g, x ≠ y := by
  obtain ⟨sc, hsc, hsc'⟩ : ∃ sc, s.scaling = some sc ∧ (sc = .minmax ∨ sc = .minmaxsym) := by
    rcases hs with h | h
    · exact ⟨_, h, .inl rfl⟩
    · exact ⟨_, h, .inr rfl⟩
  rw [← learn_minmax_iff (sqrt := sqrt) hsc' (k := k)]
  constructor
  · rintro ⟨s', Y', Z, hf⟩
    simp only [sstI, Prod.mk.injEq] at hf
    have hok := sst_fit_ok (sqrt := sqrt) (s := s) (s' := s') (Z := Z)
      (Prod.ext hf.1 (onBuffer_eq_ok hf.2))
    obtain ⟨A, B, _, _, hl⟩ := hok.learned sc hsc
    have : centered s' rows = rows := by
      have := Snap.rowMap_eq_self (Y := Snap.mat k rows) (f := fun i y => y - s'.center i)
        (by intro i _ y; simp [Sst.center, hok.centering, hc])
      simpa [Snap.rowMap, centered] using this
    rw [this] at hl
    exact ⟨_, hl⟩
  · rintro ⟨⟨A, B⟩, hl⟩
    obtain ⟨q1, q2, q3, q4, q5, q6⟩ := learn_ok hl
    have hres : ∃ s' Z, s.fitTransform sqrt (.mat k rows) = (s', .ok Z) := by
      simp only [Sst.fitTransform, hc, Bool.false_eq_true, if_false, hsc, hl]
      rw [Snap.op_fits _ (show A.Fits (Snap.mat k rows).len from q3)]
      simp only [bind, Except.bind]
      rw [Snap.op_fits _ (by rw [Snap.len_rowMap]; exact q4)]
      exact ⟨_, _, rfl⟩
    obtain ⟨s', Z, hr⟩ := hres
    refine ⟨s', (yields b (.mat k rows) Z).1, Z, ?_⟩
    simp only [sstI, hr]
    rw [onBuffer_ok (f := fun Y => (s.fitTransform sqrt Y).2) (by rw [hr])]
    rfl

/-! ### Examples -/

-- `IsSqrt` is met by the real square root.
noncomputable example : IsSqrt Real.sqrt := fun _ h => ⟨Real.sqrt_nonneg _, Real.sq_sqrt h⟩

-- The hypotheses of the theorems are met with each kind of scaling.
example : ((sstI exSqrt).fitTransform { exSst with scaling := some .minmaxsym, byrow := false } true exQ).2.2 =
    .ok (.mat 3 [[-2/3, -1/3, 1], [-1, 1/3, 2/3]]) := by decide +kernel

example : ((sstI exSqrt).fitTransform { exSst with scaling := some .maxabs } true exQ).2.2 =
    .ok (.mat 3 [[-2/3, -1/3, 1], [-1, 1/3, 2/3]]) := by decide +kernel

example : ((sstI exSqrt).fitTransform { exSst with centering := false, scaling := some .maxabssym } true
    exQ).2.2 = .ok (.mat 3 [[-2/3, -1/3, 1], [-1, 1/3, 2/3]]) := by decide +kernel

example : ((sstI exSqrt).fitTransform { exSst with scaling := some .standard } true
    (.mat 2 [[1, 3], [0, 4]])).2.2 = .ok (.mat 2 [[-1, 1], [-1, 1]]) := by decide +kernel

example : ((sstI exSqrt).fitTransform { exSst with centering := false, scaling := some .maxnorm, byrow := false }
    true (.mat 2 [[3, 0], [4, 1]])).2.2 = .ok (.mat 2 [[3/5, 0], [4/5, 1/5]]) := by decide +kernel

-- A constant row cannot be scaled by row.
example : ((sstI exSqrt).fitTransform exSst true (.mat 2 [[3, 0], [4, 4]])).2.2 = .error .nonfinite := by
  decide +kernel

end Opinf
