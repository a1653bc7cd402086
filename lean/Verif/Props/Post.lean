import Verif.Model.Post
import Verif.Props.Basis
import Verif.Props.TransformRange
import Mathlib.Analysis.SpecialFunctions.Pow.Real

/-!
# C54: error measures are zero exactly for equal data and scale correctly

`Lp_error` for finite `p` needs at least two different times for this: `C54_Lp_single_time_witness`.
-/

namespace Opinf

open List

variable {K : Type}

/-! ### Specification -/

/-- Two-dimensional data with `n` rows and `k` columns. -/
structure IsData (n k : Nat) (A : List (List K)) : Prop where
  width : A.length = k
  height : ∀ c ∈ A, c.length = n

/-- All entries are zero. -/
def AllZero [Zero K] (Z : List (List K)) : Prop := ∀ c ∈ Z, ∀ x ∈ c, x = 0

/-- The data times a number. -/
def scaleData [Mul K] (c : K) (A : List (List K)) : List (List K) := A.map (vsmul c)

variable [Field K] [LinearOrder K]

/-- What is used of `x**p` and `x**(1/p)` for nonnegative `x`. -/
structure PNorm.Valid (pn : PNorm K) : Prop where
  pow_nonneg : ∀ x, 0 ≤ x → 0 ≤ pn.pow x
  pow_zero : ∀ x, 0 ≤ x → (pn.pow x = 0 ↔ x = 0)
  pow_mul : ∀ x y, 0 ≤ x → 0 ≤ y → pn.pow (x * y) = pn.pow x * pn.pow y
  root_nonneg : ∀ y, 0 ≤ y → 0 ≤ pn.root y
  root_zero : ∀ y, 0 ≤ y → (pn.root y = 0 ↔ y = 0)
  root_mul : ∀ c y, 0 ≤ c → 0 ≤ y → pn.root (pn.pow c * y) = c * pn.root y

/-- `sqrt` is the square root. -/
def SquareRoot (sqrt : K → K) : Prop := ∀ x, 0 ≤ x → 0 ≤ sqrt x ∧ sqrt x ^ 2 = x

/-- What is expected of an error measure on data of one shape: absolute errors are nonnegative and zero exactly for
equal data; the relative error is the quotient by the norm of the data, i.e. by the absolute error of the zero
approximation; scaling both data sets scales the absolute error and keeps the relative error. -/
def Measure (n k : Nat) (err : List (List K) → List (List K) → Except Err (K × Val K)) : Prop :=
  ∀ A B, IsData n k A → IsData n k B → ∃ a d, 0 ≤ a ∧ 0 ≤ d ∧ err A B = .ok (a, ratio a d) ∧
    (a = 0 ↔ A = B) ∧ (d = 0 ↔ AllZero A) ∧
    (∀ Z, IsData n k Z → AllZero Z → ∃ ρ, err A Z = .ok (d, ρ)) ∧
    ∀ c, c ≠ 0 → err (scaleData c A) (scaleData c B) = .ok (|c| * a, ratio a d)

/-! ### Lemmas -/

/-- A norm on data of one shape. -/
def NormOn (n k : Nat) (norm : List (List K) → Except Err K) : Prop :=
  ∀ Z, IsData n k Z → ∃ v, 0 ≤ v ∧ norm Z = .ok v ∧ (v = 0 ↔ AllZero Z) ∧
    ∀ c, norm (scaleData c Z) = .ok (|c| * v)

omit [LinearOrder K] in
theorem vsub_eq_zero_iff {a b : List K} (h : a.length = b.length) : (∀ x ∈ vsub a b, x = 0) ↔ a = b := by
  induction a generalizing b with
  | nil => cases b <;> simp_all [vsub]
  | cons x a ih =>
    cases b with
    | nil => simp at h
    | cons y b =>
      have hl : a.length = b.length := by simpa using h
      have := ih hl
      simp only [vsub, zipWith_cons_cons, mem_cons, forall_eq_or_imp, cons.injEq, sub_eq_zero] at *
      rw [this]

omit [LinearOrder K] in
theorem subCols_zero_iff {n k : Nat} {A B : List (List K)} (hA : IsData n k A) (hB : IsData n k B) :
    AllZero (subCols A B) ↔ A = B := by
  obtain ⟨hAk, hAn⟩ := hA
  obtain ⟨hBk, hBn⟩ := hB
  have hl : A.length = B.length := hAk.trans hBk.symm
  clear hAk hBk
  induction A generalizing B with
  | nil => cases B <;> simp_all [AllZero, subCols]
  | cons a A ih =>
    cases B with
    | nil => simp at hl
    | cons b B =>
      have := ih (B := B) (fun c hc => hAn c (by simp [hc])) (fun c hc => hBn c (by simp [hc])) (by simpa using hl)
      have h1 := vsub_eq_zero_iff (a := a) (b := b) ((hAn a (by simp)).trans (hBn b (by simp)).symm)
      simp only [AllZero, subCols, zipWith_cons_cons, mem_cons, forall_eq_or_imp, cons.injEq] at *
      exact and_congr h1 this

omit [LinearOrder K] in
theorem IsData.sub {n k : Nat} {A B : List (List K)} (hA : IsData n k A) (hB : IsData n k B) :
    IsData n k (subCols A B) := by
  refine ⟨by simp [subCols, hA.width, hB.width], ?_⟩
  intro c hc
  obtain ⟨i, hi, rfl⟩ := mem_iff_getElem.1 hc
  simp only [subCols, length_zipWith] at hi
  simp [subCols, vsub, hA.height A[i] (getElem_mem _), hB.height B[i] (getElem_mem _)]

omit [LinearOrder K] in
theorem IsData.scale {n k : Nat} {A : List (List K)} (hA : IsData n k A) (c : K) : IsData n k (scaleData c A) := by
  refine ⟨by simp [scaleData, hA.width], ?_⟩
  intro b hb
  obtain ⟨a, ha, rfl⟩ := mem_map.1 hb
  simp [vsmul, hA.height a ha]

omit [LinearOrder K] in
theorem subCols_scale (c : K) (A B : List (List K)) :
    subCols (scaleData c A) (scaleData c B) = scaleData c (subCols A B) := by
  have hv : ∀ a b : List K, vsub (vsmul c a) (vsmul c b) = vsmul c (vsub a b) := by
    intro a
    induction a with
    | nil => intro b; simp [vsub, vsmul]
    | cons x a ih =>
      intro b
      cases b with
      | nil => simp [vsub, vsmul]
      | cons y b =>
        have := ih b
        simp only [vsub, vsmul, map_cons, zipWith_cons_cons, mul_sub] at *
        rw [this]
  induction A generalizing B with
  | nil => simp [subCols, scaleData]
  | cons a A ih =>
    cases B with
    | nil => simp [subCols, scaleData]
    | cons b B =>
      have := ih B
      simp only [subCols, scaleData, map_cons, zipWith_cons_cons] at *
      rw [this, hv]

omit [LinearOrder K] in
theorem subCols_allZero {n k : Nat} {A Z : List (List K)} (hA : IsData n k A) (hZ : IsData n k Z) (h : AllZero Z) :
    subCols A Z = A := by
  have hv : ∀ a z : List K, a.length = z.length → (∀ x ∈ z, x = 0) → vsub a z = a := by
    intro a
    induction a with
    | nil => intro z _ _; simp [vsub]
    | cons x a ih =>
      intro z hl hz
      cases z with
      | nil => simp at hl
      | cons y z =>
        have := ih z (by simpa using hl) fun x hx => hz x (by simp [hx])
        have hy := hz y (by simp)
        simp only [vsub, zipWith_cons_cons, hy, sub_zero] at *
        rw [this]
  apply ext_getElem
  · simp [subCols, hA.width, hZ.width]
  · intro i h1 h2
    have hi : i < Z.length := by rw [hZ.width, ← hA.width]; exact h2
    simp only [subCols, getElem_zipWith]
    exact hv _ _ ((hA.height _ (getElem_mem _)).trans (hZ.height _ (getElem_mem _)).symm)
      (h _ (getElem_mem hi))

theorem ratio_scale [IsStrictOrderedRing K] (c a d : K) (hc : c ≠ 0) : ratio (|c| * a) (|c| * d) = ratio a d := by
  have hc' : |c| ≠ 0 := abs_ne_zero.2 hc
  unfold ratio
  by_cases hd : d = 0
  · by_cases ha : a = 0 <;> simp [hd, ha, hc']
  · rw [if_neg (mul_ne_zero hc' hd), if_neg hd, mul_div_mul_left _ _ hc']

theorem measure_of_norm [IsStrictOrderedRing K] {n k : Nat} {norm : List (List K) → Except Err K}
    (h : NormOn n k norm) : Measure n k (absRel norm) := by
  intro A B hA hB
  obtain ⟨d, d0, d1, d2, d3⟩ := h A hA
  obtain ⟨a, a0, a1, a2, a3⟩ := h _ (hA.sub hB)
  refine ⟨a, d, a0, d0, ?_, ?_, d2, ?_, ?_⟩
  · simp only [absRel, d1, a1, bind, Except.bind, pure, Except.pure]
  · rw [a2, subCols_zero_iff hA hB]
  · intro Z hZ hz
    refine ⟨ratio d d, ?_⟩
    simp only [absRel, d1, subCols_allZero hA hZ hz, bind, Except.bind, pure, Except.pure]
  · intro c hc
    simp only [absRel, d3, subCols_scale, a3, bind, Except.bind, pure, Except.pure, ratio_scale c a d hc]

variable [IsStrictOrderedRing K]

theorem sum_zero_iff_of_nonneg {l : List K} (h : ∀ x ∈ l, 0 ≤ x) : 0 ≤ l.sum ∧ (l.sum = 0 ↔ ∀ x ∈ l, x = 0) := by
  induction l with
  | nil => simp
  | cons x l ih =>
    obtain ⟨h1, h2⟩ := ih fun y hy => h y (by simp [hy])
    have hx := h x (by simp)
    refine ⟨by simp only [sum_cons]; linarith, ?_⟩
    simp only [sum_cons, mem_cons, forall_eq_or_imp, ← h2]
    constructor
    · intro he
      constructor <;> linarith
    · rintro ⟨e1, e2⟩
      rw [e1, e2, add_zero]

theorem powSum_spec {pn : PNorm K} (hp : pn.Valid) (c : List K) :
    0 ≤ powSum pn c ∧ (powSum pn c = 0 ↔ ∀ x ∈ c, x = 0) ∧ ∀ s, powSum pn (vsmul s c) = pn.pow |s| * powSum pn c := by
  obtain ⟨h1, h2⟩ := sum_zero_iff_of_nonneg (l := c.map fun x => pn.pow |x|) (by
    intro y hy
    obtain ⟨x, -, rfl⟩ := mem_map.1 hy
    exact hp.pow_nonneg _ (abs_nonneg x))
  refine ⟨h1, ?_, ?_⟩
  · unfold powSum
    rw [h2]
    constructor
    · intro h x hx
      exact abs_eq_zero.1 ((hp.pow_zero _ (abs_nonneg x)).1 (h _ (mem_map.2 ⟨x, hx, rfl⟩)))
    · intro h y hy
      obtain ⟨x, hx, rfl⟩ := mem_map.1 hy
      exact (hp.pow_zero _ (abs_nonneg x)).2 (abs_eq_zero.2 (h x hx))
  · intro s
    unfold powSum vsmul
    rw [map_map]
    induction c with
    | nil => simp
    | cons x c ih =>
      have := ih (sum_zero_iff_of_nonneg (l := c.map fun x => pn.pow |x|) (by
        intro y hy
        obtain ⟨x, -, rfl⟩ := mem_map.1 hy
        exact hp.pow_nonneg _ (abs_nonneg x))).1 (sum_zero_iff_of_nonneg (l := c.map fun x => pn.pow |x|) (by
        intro y hy
        obtain ⟨x, -, rfl⟩ := mem_map.1 hy
        exact hp.pow_nonneg _ (abs_nonneg x))).2
      simp only [map_cons, sum_cons, Function.comp_apply, abs_mul, hp.pow_mul _ _ (abs_nonneg s) (abs_nonneg x)] at *
      rw [this, mul_add]

theorem valid_of_sqrt {sqrt : K → K} (h : SquareRoot sqrt) : (PNorm.mk (fun x => x ^ 2) sqrt).Valid where
  pow_nonneg x _ := sq_nonneg x
  pow_zero x _ := by simp
  pow_mul x y _ _ := mul_pow x y 2
  root_nonneg y hy := (h y hy).1
  root_zero y hy := by
    constructor
    · intro e
      have := (h y hy).2
      simp only at e
      rw [← this, e]; simp
    · rintro rfl
      have := (h 0 le_rfl).2
      simpa using this
  root_mul c y hc hy := by
    have h1 := h (c ^ 2 * y) (by positivity)
    have h2 := h y hy
    have : sqrt (c ^ 2 * y) ^ 2 = (c * sqrt y) ^ 2 := by rw [h1.2, mul_pow, h2.2]
    exact (pow_left_inj₀ h1.1 (mul_nonneg hc h2.1) (by norm_num)).1 this

theorem frobNorm_norm {sqrt : K → K} (h : SquareRoot sqrt) (n k : Nat) : NormOn n k (frobNorm sqrt) := by
  intro Z hZ
  clear hZ
  have hv := valid_of_sqrt h
  have hs : ∀ c : List K, sumSq c = powSum (PNorm.mk (fun x => x ^ 2) sqrt) c := by
    intro c
    simp [sumSq, powSum]
  obtain ⟨h1, h2⟩ := sum_zero_iff_of_nonneg (l := Z.map sumSq) (by
    intro y hy
    obtain ⟨c, -, rfl⟩ := mem_map.1 hy
    rw [hs]
    exact (powSum_spec hv c).1)
  refine ⟨sqrt (Z.map sumSq).sum, hv.root_nonneg _ h1, rfl, ?_, ?_⟩
  · rw [hv.root_zero _ h1, h2]
    constructor
    · intro hz c hc
      have := hz _ (mem_map.2 ⟨c, hc, rfl⟩)
      rw [hs] at this
      exact (powSum_spec hv c).2.1.1 this
    · intro hz y hy
      obtain ⟨c, hc, rfl⟩ := mem_map.1 hy
      rw [hs]
      exact (powSum_spec hv c).2.1.2 (hz c hc)
  · intro c
    have : ((scaleData c Z).map sumSq).sum = |c| ^ 2 * (Z.map sumSq).sum := by
      unfold scaleData
      rw [map_map]
      clear h1 h2
      induction Z with
      | nil => simp
      | cons z Z ih =>
        simp only [map_cons, sum_cons, Function.comp_apply, ih, mul_add, hs, (powSum_spec hv z).2.2]
    rw [frobNorm, this]
    exact congrArg _ (hv.root_mul _ _ (abs_nonneg c) h1)

theorem trapz_spec : ∀ (zs ts : List K), zs.length = ts.length → ts.Pairwise (· < ·) → (∀ z ∈ zs, 0 ≤ z) →
    0 ≤ trapz zs ts ∧ (2 ≤ zs.length → (trapz zs ts = 0 ↔ ∀ z ∈ zs, z = 0)) ∧
    ∀ c, trapz (zs.map (c * ·)) ts = c * trapz zs ts := by
  intro zs
  induction zs with
  | nil => intro ts _ _ _; simp [trapz]
  | cons z0 zs ih =>
    intro ts hl hs hz
    match zs, ts, hl with
    | [], [t0], _ => simp [trapz]
    | z1 :: zs, t0 :: t1 :: ts, hl =>
      obtain ⟨h1, h2, h3⟩ := ih (t1 :: ts) (by simpa using hl) (pairwise_cons.1 hs).2
        fun z hz' => hz z (by simp [hz'])
      have ht : 0 < t1 - t0 := sub_pos.2 ((pairwise_cons.1 hs).1 t1 (by simp))
      have p0 := hz z0 (by simp)
      have p1 := hz z1 (by simp)
      have ha : 0 ≤ (t1 - t0) * (z0 + z1) / 2 := by positivity
      refine ⟨by simp only [trapz]; linarith, ?_, ?_⟩
      · intro _
        constructor
        · intro he
          have he1 : (t1 - t0) * (z0 + z1) / 2 = 0 := by simp only [trapz] at he; linarith
          have he2 : trapz (z1 :: zs) (t1 :: ts) = 0 := by simp only [trapz] at he; linarith
          have hsum : z0 + z1 = 0 := by
            have : (t1 - t0) * (z0 + z1) = 0 := by linarith
            rcases mul_eq_zero.1 this with h | h
            · exact absurd h (ne_of_gt ht)
            · exact h
          have e0 : z0 = 0 := by linarith
          have e1 : z1 = 0 := by linarith
          intro z hz'
          rcases mem_cons.1 hz' with rfl | hz'
          · exact e0
          · rcases zs with _ | ⟨z2, zs⟩
            · rw [mem_singleton.1 hz', e1]
            · exact (h2 (by simp)).1 he2 z hz'
        · intro he
          have e0 := he z0 (by simp)
          have e1 := he z1 (by simp)
          have : trapz (z1 :: zs) (t1 :: ts) = 0 := by
            rcases zs with _ | ⟨z2, zs⟩
            · cases ts <;> simp [trapz]
            · exact (h2 (by simp)).2 fun z hz' => he z (by simp [hz'])
          rw [trapz, this, e0, e1]
          simp
      · intro c
        have := h3 c
        simp only [map_cons, trapz] at this ⊢
        rw [this]
        ring

theorem LpNorm_norm {pn : PNorm K} (hp : pn.Valid) (ts : List K) (hs : ts.Pairwise (· < ·)) (h2 : 2 ≤ ts.length)
    (n : Nat) : NormOn n ts.length (LpNorm pn ts) := by
  intro Z hZ
  have hl : (Z.map (powSum pn)).length = ts.length := by rw [length_map, hZ.width]
  obtain ⟨t1, t2, t3⟩ := trapz_spec (Z.map (powSum pn)) ts hl hs (by
    intro y hy
    obtain ⟨c, -, rfl⟩ := mem_map.1 hy
    exact (powSum_spec hp c).1)
  refine ⟨pn.root (trapz (Z.map (powSum pn)) ts), hp.root_nonneg _ t1, rfl, ?_, ?_⟩
  · rw [hp.root_zero _ t1, t2 (by rw [hl]; exact h2)]
    constructor
    · intro h c hc
      exact (powSum_spec hp c).2.1.1 (h _ (mem_map.2 ⟨c, hc, rfl⟩))
    · intro h y hy
      obtain ⟨c, hc, rfl⟩ := mem_map.1 hy
      exact (powSum_spec hp c).2.1.2 (h c hc)
  · intro c
    have : (scaleData c Z).map (powSum pn) = (Z.map (powSum pn)).map (pn.pow |c| * ·) := by
      unfold scaleData
      rw [map_map, map_map]
      exact map_congr_left fun z _ => (powSum_spec hp z).2.2 c
    rw [LpNorm, this, t3]
    exact congrArg _ (hp.root_mul _ _ (abs_nonneg c) t1)

theorem maxOf_ok {l : List K} (h : l ≠ []) : ∃ m, maxOf l = .ok m := by
  cases l with
  | nil => exact absurd rfl h
  | cons x l => exact ⟨_, rfl⟩

theorem maxOf_scale {l : List K} {m c : K} (hc : 0 ≤ c) (h : maxOf l = .ok m) : maxOf (l.map (c * ·)) = .ok (c * m) := by
  cases l with
  | nil => simp [maxOf] at h
  | cons x l =>
    simp only [maxOf, Except.ok.injEq, map_cons] at h ⊢
    subst h
    induction l generalizing x with
    | nil => rfl
    | cons y l ih =>
      simp only [map_cons, foldl_cons]
      rw [← ih (max x y), mul_max_of_nonneg _ _ hc]

theorem maxAbs_norm {c : List K} (h : c ≠ []) : ∃ v, 0 ≤ v ∧ maxAbsOf c = .ok v ∧ (v = 0 ↔ ∀ x ∈ c, x = 0) ∧
    ∀ s, maxAbsOf (vsmul s c) = .ok (|s| * v) := by
  obtain ⟨v, hv⟩ := maxOf_ok (l := c.map fun x => |x|) (by simpa using h)
  obtain ⟨h1, h2⟩ := maxOf_spec hv
  obtain ⟨x, hx, rfl⟩ := mem_map.1 h1
  refine ⟨|x|, abs_nonneg x, hv, ?_, ?_⟩
  · constructor
    · intro h0 y hy
      have := h2 _ (mem_map.2 ⟨y, hy, rfl⟩)
      rw [h0] at this
      exact abs_eq_zero.1 (le_antisymm this (abs_nonneg y))
    · intro h0
      exact abs_eq_zero.2 (h0 x hx)
  · intro s
    have : (vsmul s c).map (fun x => |x|) = (c.map fun x => |x|).map (|s| * ·) := by
      simp [vsmul, abs_mul, Function.comp_def]
    rw [maxAbsOf, this]
    exact maxOf_scale (abs_nonneg s) hv

theorem mapM_norm {N : List K → Except Err K} {ok : List K → Prop}
    (h : ∀ c, ok c → ∃ v, 0 ≤ v ∧ N c = .ok v ∧ (v = 0 ↔ ∀ x ∈ c, x = 0) ∧ ∀ s, N (vsmul s c) = .ok (|s| * v)) :
    ∀ Z : List (List K), (∀ c ∈ Z, ok c) → ∃ vs : List K, vs.length = Z.length ∧ Z.mapM N = .ok vs ∧ (∀ v ∈ vs, 0 ≤ v) ∧
      (∀ i (h1 : i < vs.length) (h2 : i < Z.length), vs[i] = 0 ↔ ∀ x ∈ Z[i], x = 0) ∧
      ∀ s, (scaleData s Z).mapM N = .ok (vs.map (|s| * ·)) := by
  intro Z
  induction Z with
  | nil => intro _; exact ⟨[], rfl, rfl, by simp, by simp, fun s => rfl⟩
  | cons c Z ih =>
    intro hZ
    obtain ⟨vs, e1, e2, e3, e4, e5⟩ := ih fun d hd => hZ d (by simp [hd])
    obtain ⟨v, f1, f2, f3, f4⟩ := h c (hZ c (by simp))
    refine ⟨v :: vs, by simp [e1], ?_, ?_, ?_, ?_⟩
    · rw [mapM_cons, f2, e2]; rfl
    · intro w hw
      rcases mem_cons.1 hw with rfl | hw
      · exact f1
      · exact e3 w hw
    · intro i h1 h2
      cases i with
      | zero => simpa using f3
      | succ i => simpa using e4 i (by simpa using h1) (by simpa using h2)
    · intro s
      have := e5 s
      simp only [scaleData, map_cons] at this ⊢
      rw [mapM_cons, f4 s, this]; rfl

theorem supNorm_norm (n k : Nat) (hn : 0 < n) (hk : 0 < k) : NormOn n k (supNorm (K := K)) := by
  intro Z hZ
  obtain ⟨vs, e1, e2, e3, e4, e5⟩ := mapM_norm (N := maxAbsOf (K := K)) (ok := fun c => c ≠ [])
    (fun c hc => maxAbs_norm hc) Z (fun c hc h0 => by
      have := hZ.height c hc
      rw [h0] at this
      simp at this
      omega)
  have hne : vs ≠ [] := by
    intro h0
    rw [h0, hZ.width] at e1
    simp at e1
    omega
  obtain ⟨m, hm⟩ := maxOf_ok hne
  obtain ⟨m1, m2⟩ := maxOf_spec hm
  refine ⟨m, e3 m m1, ?_, ?_, ?_⟩
  · simp only [supNorm, e2, bind, Except.bind, hm]
  · constructor
    · intro h0 c hc
      obtain ⟨i, hi, rfl⟩ := mem_iff_getElem.1 hc
      have hi' : i < vs.length := by rw [e1]; exact hi
      refine (e4 i hi' hi).1 (le_antisymm ?_ (e3 _ (getElem_mem hi')))
      rw [← h0]
      exact m2 _ (getElem_mem hi')
    · intro h0
      obtain ⟨i, hi, rfl⟩ := mem_iff_getElem.1 m1
      have hi' : i < Z.length := by rw [← e1]; exact hi
      exact (e4 i hi hi').2 (h0 _ (getElem_mem hi'))
  · intro c
    simp only [supNorm, e5, bind, Except.bind]
    exact maxOf_scale (abs_nonneg c) hm

/-! ### Theorems -/

/-- The data sets as arguments. -/
theorem frobeniusError_eq {sqrt : K → K} {n k : Nat} {A B : List (List K)} (hA : IsData n k A) (hB : IsData n k B) :
    frobeniusError sqrt (.mat n A) (.mat n B) = absRel (frobNorm sqrt) A B := by
  simp [frobeniusError, Data.shape, hA.width, hB.width]

/-- C54: `frobenius_error` is an error measure, for data of every shape. -/
theorem C54_frobenius {sqrt : K → K} (h : SquareRoot sqrt) (n k : Nat) :
    Measure n k fun A B => frobeniusError sqrt (.mat n A) (.mat n B) := by
  intro A B hA hB
  have := measure_of_norm (frobNorm_norm h n k) A B hA hB
  rw [← frobeniusError_eq hA hB] at this
  obtain ⟨a, d, h1, h2, h3, h4, h5, h6, h7⟩ := this
  refine ⟨a, d, h1, h2, h3, h4, h5, ?_, ?_⟩
  · intro Z hZ hz
    change ∃ ρ, frobeniusError sqrt (.mat n A) (.mat n Z) = _
    rw [frobeniusError_eq hA hZ]
    exact h6 Z hZ hz
  · intro c hc
    change frobeniusError sqrt (.mat n (scaleData c A)) (.mat n (scaleData c B)) = _
    rw [frobeniusError_eq (hA.scale c) (hB.scale c)]
    exact h7 c hc

/-- C54: the squared Frobenius error is the sum of the squared differences of the entries. -/
theorem C54_frobenius_value {sqrt : K → K} (h : SquareRoot sqrt) (n k : Nat) (A B : List (List K)) (hA : IsData n k A)
    (hB : IsData n k B) : ∃ a ρ, frobeniusError sqrt (.mat n A) (.mat n B) = .ok (a, ρ) ∧ 0 ≤ a ∧
      a ^ 2 = ((subCols A B).map fun c => (c.map fun x => x ^ 2).sum).sum := by
  have hs := sum_zero_iff_of_nonneg (l := (subCols A B).map sumSq) (by
    intro y hy
    obtain ⟨c, -, rfl⟩ := mem_map.1 hy
    exact (sum_zero_iff_of_nonneg (by
      intro y hy
      obtain ⟨x, -, rfl⟩ := mem_map.1 hy
      exact sq_nonneg x)).1)
  refine ⟨_, _, by rw [frobeniusError_eq hA hB]; rfl, (h _ hs.1).1, (h _ hs.1).2⟩

theorem LpError_eq {p : PNorm K} {n k : Nat} {A B : List (List K)} (ts : List K) (ht : ts.length = k)
    (hA : IsData n k A) (hB : IsData n k B) :
    LpError (.fin p) (.times ts) (.mat n A) (.mat n B) = absRel (LpNorm p ts) A B := by
  simp [LpError, Data.shape, Data.columns, hA.width, hB.width, ht]

theorem LpError_inf_eq {n k : Nat} {A B : List (List K)} (t : TimeArg K) (hA : IsData n k A) (hB : IsData n k B) :
    LpError .inf t (.mat n A) (.mat n B) = absRel supNorm A B := by
  cases t <;> simp [LpError, Data.shape, Data.columns, hA.width, hB.width]

/-- C54: `Lp_error` with finite `p` is an error measure if there are at least two times, in increasing order. -/
theorem C54_Lp_partial {p : PNorm K} (hp : p.Valid) (ts : List K) (hs : ts.Pairwise (· < ·)) (h2 : 2 ≤ ts.length)
    (n : Nat) : Measure n ts.length fun A B => LpError (.fin p) (.times ts) (.mat n A) (.mat n B) := by
  intro A B hA hB
  have := measure_of_norm (LpNorm_norm hp ts hs h2 n) A B hA hB
  rw [← LpError_eq ts rfl hA hB] at this
  obtain ⟨a, d, h1, h2, h3, h4, h5, h6, h7⟩ := this
  refine ⟨a, d, h1, h2, h3, h4, h5, ?_, ?_⟩
  · intro Z hZ hz
    change ∃ ρ, LpError (.fin p) (.times ts) (.mat n A) (.mat n Z) = _
    rw [LpError_eq ts rfl hA hZ]
    exact h6 Z hZ hz
  · intro c hc
    change LpError (.fin p) (.times ts) (.mat n (scaleData c A)) (.mat n (scaleData c B)) = _
    rw [LpError_eq ts rfl (hA.scale c) (hB.scale c)]
    exact h7 c hc

/-- C54: `Lp_error` with `p = inf` is an error measure for data with at least one entry. -/
theorem C54_Lp_inf (t : TimeArg K) (n k : Nat) (hn : 0 < n) (hk : 0 < k) :
    Measure n k fun A B => LpError (.inf : POrd K) t (.mat n A) (.mat n B) := by
  intro A B hA hB
  have := measure_of_norm (supNorm_norm n k hn hk) A B hA hB
  rw [← LpError_inf_eq t hA hB] at this
  obtain ⟨a, d, h1, h2, h3, h4, h5, h6, h7⟩ := this
  refine ⟨a, d, h1, h2, h3, h4, h5, ?_, ?_⟩
  · intro Z hZ hz
    change ∃ ρ, LpError .inf t (.mat n A) (.mat n Z) = _
    rw [LpError_inf_eq t hA hZ]
    exact h6 Z hZ hz
  · intro c hc
    change LpError .inf t (.mat n (scaleData c A)) (.mat n (scaleData c B)) = _
    rw [LpError_inf_eq t (hA.scale c) (hB.scale c)]
    exact h7 c hc

/-- C54: the property fails for a single time: any two snapshots have `Lp_error` zero (and relative error NaN). -/
theorem C54_Lp_single_time_witness {p : PNorm K} (hp : p.Valid) (t : K) (a b : List K) (h : a.length = b.length) :
    LpError (.fin p) (.times [t]) (.mat a.length [a]) (.mat b.length [b]) = .ok (0, .nan) := by
  have h0 : p.root 0 = 0 := (hp.root_zero 0 le_rfl).2 rfl
  simp [LpError, Data.shape, Data.columns, h, absRel, LpNorm, trapz, subCols, h0, ratio, bind, Except.bind, pure,
    Except.pure]

/-- C54: one-dimensional data are one row: `Lp_error` treats each entry as a snapshot. -/
theorem C54_Lp_one_dimensional (p : POrd K) (t : TimeArg K) (a b : List K) :
    LpError p t (.vec a) (.vec b) = LpError p t (.mat 1 (a.map fun x => [x])) (.mat 1 (b.map fun x => [x])) := by
  cases p <;> cases t <;> simp [LpError, Data.shape, Data.columns]

/-- The norm of a single column for `lp_error`. -/
theorem colNorm_norm {p : POrd K} (n : Nat) (hp : p ≠ .bad) (hv : ∀ pn, p = .fin pn → pn.Valid)
    (hinf : p = .inf → 0 < n) (c : List K) (hc : c.length = n) : ∃ v, 0 ≤ v ∧ colNorm p c = .ok v ∧
      (v = 0 ↔ ∀ x ∈ c, x = 0) ∧ ∀ s, colNorm p (vsmul s c) = .ok (|s| * v) := by
  cases p with
  | bad => exact absurd rfl hp
  | fin pn =>
    have hv := hv pn rfl
    obtain ⟨h1, h2, h3⟩ := powSum_spec hv c
    refine ⟨pn.root (powSum pn c), hv.root_nonneg _ h1, rfl, by rw [hv.root_zero _ h1, h2], ?_⟩
    intro s
    rw [colNorm, h3, hv.root_mul _ _ (abs_nonneg s) h1]
  | inf =>
    exact maxAbs_norm (by
      intro h0
      have := hinf rfl
      rw [h0] at hc
      simp at hc
      omega)

/-- C54: `lp_error` gives, for every snapshot, a nonnegative absolute error which is zero exactly if the snapshots
agree, and its quotient by the norm of the true snapshot (by the largest of these norms with `normalize`); scaling
both data sets scales the absolute errors and keeps the relative ones. -/
theorem C54_lp {p : POrd K} (n k : Nat) (hp : p ≠ .bad) (hv : ∀ pn, p = .fin pn → pn.Valid) (hinf : p = .inf → 0 < n)
    (normalize : Bool) (hnk : normalize = true → 0 < k) (A B : List (List K)) (hA : IsData n k A) (hB : IsData n k B) :
    ∃ es ds : List K, es.length = k ∧ ds.length = k ∧ (∀ e ∈ es, 0 ≤ e) ∧ (∀ d ∈ ds, 0 ≤ d) ∧
      (∀ j (h1 : j < es.length) (h2 : j < A.length) (h3 : j < B.length), es[j] = 0 ↔ A[j] = B[j]) ∧
      (∀ j (h1 : j < ds.length) (h2 : j < A.length), ds[j] = 0 ↔ ∀ x ∈ A[j], x = 0) ∧
      (normalize = false → lpError p normalize (.mat n A) (.mat n B) = .ok (es, zipWith ratio es ds) ∧
        ∀ c, c ≠ 0 → lpError p normalize (.mat n (scaleData c A)) (.mat n (scaleData c B)) =
          .ok (es.map (|c| * ·), zipWith ratio es ds)) ∧
      (normalize = true → ∃ m ∈ ds, (∀ d ∈ ds, d ≤ m) ∧
        lpError p normalize (.mat n A) (.mat n B) = .ok (es, es.map (ratio · m)) ∧
        ∀ c, c ≠ 0 → lpError p normalize (.mat n (scaleData c A)) (.mat n (scaleData c B)) =
          .ok (es.map (|c| * ·), es.map (ratio · m))) := by
  have key := mapM_norm (N := colNorm p) (ok := fun c => c.length = n) (colNorm_norm n hp hv hinf)
  obtain ⟨ds, d1, d2, d3, d4, d5⟩ := key A hA.height
  obtain ⟨es, e1, e2, e3, e4, e5⟩ := key (subCols A B) (hA.sub hB).height
  have hesk : es.length = k := by rw [e1, (hA.sub hB).width]
  have hdsk : ds.length = k := by rw [d1, hA.width]
  have run : ∀ (A' B' : List (List K)), IsData n k A' → IsData n k B' → lpError p normalize (.mat n A') (.mat n B') =
      (do
        let ns ← A'.mapM (colNorm p)
        let ns ← normData normalize ns
        let es ← (subCols A' B').mapM (colNorm p)
        return (es, zipWith ratio es ns)) := by
    intro A' B' hA' hB'
    cases p with
    | bad => exact absurd rfl hp
    | fin pn => simp [lpError, Data.shape, hA'.width, hB'.width]
    | inf => simp [lpError, Data.shape, hA'.width, hB'.width]
  have zip_scale : ∀ c : K, c ≠ 0 → ∀ es ds : List K,
      zipWith ratio (es.map (|c| * ·)) (ds.map (|c| * ·)) = zipWith ratio es ds := by
    intro c hc es
    induction es with
    | nil => intro ds; simp
    | cons x es ih =>
      intro ds
      cases ds with
      | nil => simp
      | cons y ds => simp [ratio_scale c x y hc, ih ds]
  have zip_rep : ∀ (m : K) (es : List K), zipWith ratio es (replicate es.length m) = es.map (ratio · m) := by
    intro m es
    induction es with
    | nil => rfl
    | cons x es ih => simp only [length_cons, replicate_succ, zipWith_cons_cons, map_cons, ih]
  refine ⟨es, ds, hesk, hdsk, e3, d3, ?_, d4, ?_, ?_⟩
  · intro j h1 h2 h3
    have hj : j < (subCols A B).length := by rw [← e1]; exact h1
    rw [e4 j h1 hj]
    have : (subCols A B)[j] = vsub A[j] B[j] := by simp [subCols]
    rw [this, vsub_eq_zero_iff ((hA.height _ (getElem_mem _)).trans (hB.height _ (getElem_mem _)).symm)]
  · intro hn
    subst hn
    refine ⟨?_, ?_⟩
    · rw [run A B hA hB]
      simp only [d2, e2, normData, Bool.false_eq_true, if_false, bind, Except.bind, pure, Except.pure]
    · intro c hc
      rw [run _ _ (hA.scale c) (hB.scale c)]
      simp only [d5, subCols_scale, e5, normData, Bool.false_eq_true, if_false, bind, Except.bind, pure, Except.pure,
        zip_scale c hc]
  · intro hn
    subst hn
    have hne : ds ≠ [] := by
      intro h0
      rw [h0] at hdsk
      have := hnk rfl
      simp at hdsk
      omega
    obtain ⟨m, hm⟩ := maxOf_ok hne
    obtain ⟨m1, m2⟩ := maxOf_spec hm
    refine ⟨m, m1, m2, ?_, ?_⟩
    · rw [run A B hA hB]
      simp only [d2, e2, normData, if_true, hm, bind, Except.bind, pure, Except.pure]
      rw [← zip_rep, hdsk, hesk]
    · intro c hc
      rw [run _ _ (hA.scale c) (hB.scale c)]
      simp only [d5, subCols_scale, e5, normData, if_true, maxOf_scale (abs_nonneg c) hm, bind, Except.bind, pure,
        Except.pure, length_map]
      have : replicate ds.length (|c| * m) = (replicate es.length m).map (|c| * ·) := by
        rw [map_replicate, hdsk, hesk]
      rw [this, zip_scale c hc, zip_rep]

/-- C54: misaligned data, a nonpositive order, and missing or misaligned times are refused. -/
theorem C54_refused (sqrt : K → K) (p : POrd K) (normalize : Bool) (t : TimeArg K) (A B : Data K) :
    (A.shape ≠ B.shape → frobeniusError sqrt A B = .error .value ∧ lpError p normalize A B = .error .value ∧
      LpError p t A B = .error .value) ∧
    lpError .bad normalize A B = .error .value ∧ LpError .bad t A B = .error .value ∧
    (∀ pn, LpError (.fin pn) .none A B = .error .value ∧ LpError (.fin pn) .other A B = .error .value) ∧
    (∀ pn ts cols, A.columns = some cols → cols.length ≠ ts.length → LpError (.fin pn) (.times ts) A B = .error .value) ∧
    (∀ xs ys, frobeniusError sqrt (.vec xs) (.vec ys) = .error .value) := by
  refine ⟨?_, rfl, rfl, ?_, ?_, ?_⟩
  · intro h
    refine ⟨by simp [frobeniusError, h], ?_, ?_⟩
    · cases p <;> simp [lpError, h]
    · cases p <;> simp [LpError, h]
  · intro pn
    constructor <;>
    · simp only [LpError]
      split
      · rfl
      · split <;> rfl
  · intro pn ts cols hc hl
    simp only [LpError, hc]
    split
    · rfl
    · cases B.columns <;> simp [hl]
  · intro xs ys
    simp only [frobeniusError]
    split <;> rfl

/-- C54: for an orthonormal basis, the projection error is zero exactly if every snapshot is a combination of the
basis vectors. -/
theorem C54_projection {sqrt : K → K} (h : SquareRoot sqrt) (V : Cols K) (hV : V.WF) (ho : Orthonormal V none)
    (k : Nat) (Q : List (List K)) (hQ : IsData V.n k Q) :
    ∃ a ρ, projectionError sqrt (.mat V.n Q) V = .ok (a, ρ) ∧ 0 ≤ a ∧
      (a = 0 ↔ ∀ q ∈ Q, ∃ z : List K, z.length = V.cols.length ∧ q = vecMat V.n z V.cols) := by
  have hP : IsData V.n k (Q.map fun q => vecMat V.n (matVec V.cols q) V.cols) := by
    refine ⟨by simp [hQ.width], ?_⟩
    intro c hc
    obtain ⟨q, -, rfl⟩ := mem_map.1 hc
    exact length_vecMat _ _ _ hV
  obtain ⟨a, d, h1, -, h3, h4, -⟩ := measure_of_norm (frobNorm_norm h V.n k) Q _ hQ hP
  refine ⟨a, ratio a d, ?_, h1, ?_⟩
  · simp only [projectionError, if_true]
    exact h3
  · rw [h4]
    constructor
    · intro he q hq
      obtain ⟨i, hi, rfl⟩ := mem_iff_getElem.1 hq
      refine ⟨matVec V.cols Q[i], by simp [matVec], ?_⟩
      have := congrArg (fun l => l[i]?) he
      simpa [hi] using this
    · intro hz
      symm
      conv_rhs => rw [← map_id Q]
      apply map_congr_left
      intro q hq
      obtain ⟨z, hz1, rfl⟩ := hz q hq
      have := coords_combine hV (W := none) trivial ((orthonormal_iff _ _).1 ho) z hz1
      rw [matVec_transpose V.n V.cols z hV] at this
      simp only [wvec] at this
      rw [this, id]

/-! ### The hypotheses are met -/

/-- For the real numbers every exponent `p > 0` is covered. -/
theorem C54_real_exponents (p : ℝ) (hp : 0 < p) : (PNorm.mk (fun x : ℝ => x ^ p) fun y => y ^ (1 / p)).Valid where
  pow_nonneg x hx := Real.rpow_nonneg hx p
  pow_zero x hx := by rw [Real.rpow_eq_zero hx hp.ne']
  pow_mul x y hx hy := Real.mul_rpow hx hy
  root_nonneg y hy := Real.rpow_nonneg hy _
  root_zero y hy := by rw [Real.rpow_eq_zero hy (by positivity)]
  root_mul c y hc hy := by
    simp only
    rw [Real.mul_rpow (Real.rpow_nonneg hc p) hy, ← Real.rpow_mul hc, mul_one_div_cancel hp.ne', Real.rpow_one]

/-- The square root of the real numbers. -/
theorem C54_real_sqrt : SquareRoot Real.sqrt := fun x hx => ⟨Real.sqrt_nonneg x, Real.sq_sqrt hx⟩

/-- The exponent 1, computable. -/
def oneNorm : PNorm ℚ := ⟨id, id⟩

theorem oneNorm_valid : oneNorm.Valid where
  pow_nonneg _ h := h
  pow_zero _ _ := Iff.rfl
  pow_mul _ _ _ _ := rfl
  root_nonneg _ h := h
  root_zero _ _ := Iff.rfl
  root_mul _ _ _ _ := rfl

example : IsData 2 3 [[(1 : ℚ), 2], [0, 0], [3, -4]] := ⟨rfl, by decide⟩

example : lpError (.fin oneNorm) false (.mat 2 [[(1 : ℚ), 2], [0, 0], [3, -4]]) (.mat 2 [[1, 2], [0, 1], [3, 4]]) =
    .ok ([0, 1, 8], [.num 0, .inf, .num (8 / 7)]) := by decide +kernel

example : lpError (.inf : POrd ℚ) true (.mat 2 [[(1 : ℚ), 2], [0, 0], [3, -4]]) (.mat 2 [[1, 2], [0, 1], [3, 4]]) =
    .ok ([0, 1, 8], [.num 0, .num (1 / 4), .num 2]) := by decide +kernel

example : LpError (.fin oneNorm) (.times [0, 1, 3]) (.mat 2 [[(1 : ℚ), 2], [0, 0], [3, -4]])
    (.mat 2 [[1, 2], [0, 1], [3, 4]]) = .ok (19 / 2, .num (19 / 17)) := by decide +kernel

example : LpError .inf .none (.vec [(1 : ℚ), 2, -5]) (.vec [1, 1, 1]) = .ok (6, .num (6 / 5)) := by decide +kernel

/-- An orthonormal basis with rational entries. -/
example : Orthonormal (⟨2, [[(3 / 5 : ℚ), 4 / 5]]⟩ : Cols ℚ) none := (orthonormal_iff _ _).2 (by decide +kernel)

end Opinf
