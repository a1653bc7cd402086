import Verif.Lemmas.FiniteDiff
import Mathlib.Tactic.Linarith
import Mathlib.Algebra.Order.Field.Basic

/-!
# Properties C31-C34: derivative estimation

C31 (exactness on polynomials), C32 (alignment), C33 (the self-test is misaligned), C34 (nonuniform
grids).
-/

namespace Opinf

open List

variable {K : Type*}

/-! ## Specification vocabulary -/

/-- Documented order of accuracy of each scheme. -/
def Scheme.docOrder : Scheme → Nat
  | .fwd1 | .bwd1 => 1
  | .fwd2 | .bwd2 | .ctr2 | .ord2 => 2
  | .fwd3 | .bwd3 => 3
  | .fwd4 | .bwd4 | .ctr4 | .ord4 => 4
  | .fwd5 | .bwd5 => 5
  | .fwd6 | .bwd6 | .ctr6 | .ord6 => 6

/-- Does the scheme return an estimate at every snapshot? -/
def Scheme.mixed : Scheme → Bool
  | .ord2 | .ord4 | .ord6 => true
  | _ => false

/-- Index of the first snapshot that gets a derivative estimate: forward schemes start at the first
snapshot, backward schemes after `order` snapshots, central schemes after `order / 2`. -/
def Scheme.first : Scheme → Nat
  | .bwd1 => 1 | .bwd2 => 2 | .bwd3 => 3 | .bwd4 => 4 | .bwd5 => 5 | .bwd6 => 6
  | .ctr2 => 1 | .ctr4 => 2 | .ctr6 => 3
  | _ => 0

/-- Number of snapshots with a derivative estimate, out of `k`. -/
def Scheme.width (s : Scheme) (k : Nat) : Nat := if s.mixed then k else k - s.docOrder

/-- Smallest number of snapshots the scheme accepts. -/
def Scheme.minSnapshots (s : Scheme) : Nat := if s.mixed then s.docOrder + 1 else s.docOrder

/-- Samples of one function at the `w` uniform grid times starting at index `a`. -/
def samples (f : K → K) [Semiring K] (t0 dt : K) (a w : Nat) : List K :=
  (range w).map fun j => f (t0 + ((a + j : Nat) : K) * dt)

/-- Snapshot matrix of several polynomials (one per row) on a uniform grid of `k` times. -/
noncomputable def polySnapshots [Field K] (ps : List (Polynomial K)) (t0 dt : K) (k : Nat) :
    Mat K :=
  ⟨ps.length, k, ps.map fun p => samples p.eval t0 dt 0 k⟩

/-! ## C31 -/

theorem samples_slice (f : K → K) [Semiring K] (t0 dt : K) (k a b : Nat) (hb : b ≤ k) :
    ((samples f t0 dt 0 k).take b).drop a = samples f t0 dt a (b - a) := by
  simp only [samples, Nat.zero_add]
  exact take_drop_range_map k a b _ hb

theorem pure_estimate [Field K] [CharZero K] [DecidableEq K] (mode : Mode) (c : List Int)
    (den n off : Nat) (hc : c.length = n + 1) (hden : den ≠ 0) (hE : Exact K c den off n)
    (hcols : ∀ l : List K, n ≤ l.length →
      mode.cols n l = (l.take (off + (l.length - n))).drop off)
    (hoff : off ≤ n) (ps : List (Polynomial K)) (hps : ∀ p ∈ ps, p.natDegree ≤ n) (t0 dt : K)
    (hdt : dt ≠ 0) (k : Nat) (hk : n ≤ k) :
    finiteDifference (polySnapshots ps t0 dt k) (scaled dt c den) mode none
      = .ok (⟨ps.length, k - n, ps.map fun p => samples p.eval t0 dt off (k - n)⟩,
          ⟨ps.length, k - n, ps.map fun p => samples p.derivative.eval t0 dt off (k - n)⟩, none) := by
  have hlen : (scaled dt c den).length = n + 1 := by simp [scaled, hc]
  have h1 : ps.map (fun p => mode.cols n (samples p.eval t0 dt 0 k))
      = ps.map fun p => samples p.eval t0 dt off (k - n) := by
    apply map_congr_left
    intro p _
    have hl : (samples p.eval t0 dt 0 k).length = k := by simp [samples]
    rw [hcols _ (by omega), hl, samples_slice _ _ _ _ _ _ (by omega)]
    congr 1
    omega
  have h2 : ps.map (fun p => fdLoop (samples p.eval t0 dt 0 k) (k - n) (scaled dt c den) 0
        (replicate (k - n) 0))
      = ps.map fun p => samples p.derivative.eval t0 dt off (k - n) := by
    apply map_congr_left
    intro p hp
    have : samples p.eval t0 dt 0 k = (range k).map fun j : Nat => p.eval (t0 + (j : K) * dt) := by
      simp [samples]
    rw [this, fdLoop_rows _ k n _ hlen hk]
    simp only [samples]
    apply map_congr_left
    intro i _
    rw [hE.poly hden p (hps p hp) t0 dt hdt i, Nat.add_comm off i]
  rw [← h1, ← h2]
  simp only [finiteDifference, polySnapshots, hlen, Nat.add_sub_cancel,
    if_neg (Nat.not_lt.mpr hk), Mat.mapCols, Option.map_none, map_map]
  rfl

theorem cols_fwd {α : Type*} (n : Nat) (hn : 0 < n) (l : List α) (_ : n ≤ l.length) :
    Mode.fwd.cols n l = (l.take (0 + (l.length - n))).drop 0 := by
  rw [Mode.cols, pySlice_fwd n hn]; simp

theorem cols_bwd {α : Type*} (n : Nat) (l : List α) (h : n ≤ l.length) :
    Mode.bwd.cols n l = (l.take (n + (l.length - n))).drop n := by
  rw [Mode.cols, pySlice_bwd n, Nat.add_sub_cancel' h, take_length]

theorem cols_ctr {α : Type*} (n m : Nat) (hm : 0 < m) (hnm : n = 2 * m) (l : List α)
    (h : n ≤ l.length) : Mode.ctr.cols n l = (l.take (m + (l.length - n))).drop m := by
  have : n / 2 = m := by omega
  rw [Mode.cols, this, pySlice_ctr m hm]
  congr 2
  omega

/-- `dot` of the first `s` samples. -/
theorem dot_take_samples [CommSemiring K] (f : K → K) (t0 dt : K) (k a : Nat) (cs : List K)
    (h : a + cs.length ≤ k) :
    dot ((samples f t0 dt 0 k).drop a) cs
      = dotF cs (fun j => f (t0 + ((a + j : Nat) : K) * dt)) := by
  rw [dot_comm', samples]
  simp only [Nat.zero_add]
  rw [drop_range_map, dot_range_dotF _ _ _ (by omega)]

theorem dot_take [CommSemiring K] (row cs : List K) : dot (row.take cs.length) cs = dot row cs := by
  induction cs generalizing row with
  | nil => simp
  | cons c cs ih => cases row with
    | nil => simp
    | cons x row => simp [ih]

theorem samples_getElem [Semiring K] (f : K → K) (t0 dt : K) (a w i : Nat)
    (h : i < (samples f t0 dt a w).length) :
    (samples f t0 dt a w)[i] = f (t0 + ((a + i : Nat) : K) * dt) := by
  simp [samples]

/-- A row of `ddt_uniform` from the exactness of its stencils. -/
theorem mixed_row [Field K] [CharZero K] [DecidableEq K] (fronts backs : List (List Int))
    (cc : List Int) (den cden n : Nat) (hden : den ≠ 0) (hcden : cden ≠ 0)
    (hn : n = 2 * fronts.length)
    (hfl : ∀ c ∈ fronts, c.length = n + 1) (hbl : backs.length = fronts.length)
    (hbacks : backs = fronts.reverse.map fun c => c.reverse.map (- ·))
    (hcl : cc.length = n + 1)
    (hctr : Exact K cc cden fronts.length n)
    (hf : ∀ i (hi : i < fronts.length), Exact K fronts[i] den i n)
    (hb : ∀ i (hi : i < backs.length), Exact K backs[i] den (fronts.length + 1 + i) n)
    (p : Polynomial K) (hp : p.natDegree ≤ n) (t0 dt : K) (hdt : dt ≠ 0) (k : Nat)
    (hk : n + 1 ≤ k) :
    ddtUniformRow (fronts.map fun c => scaled dt c den) (scaled dt cc cden)
      (samples p.eval t0 dt 0 k) = samples p.derivative.eval t0 dt 0 k := by
  have hl : (samples p.eval t0 dt 0 k).length = k := by simp [samples]
  have hsc : (scaled dt cc cden).length = n + 1 := by simp [scaled, hcl]
  have hs' : samples p.eval t0 dt 0 k = (range k).map fun j : Nat => p.eval (t0 + (j : K) * dt) := by
    simp [samples]
  -- the three parts
  have e1 : (fronts.map fun c => scaled dt c den).map
      (fun c => dot ((samples p.eval t0 dt 0 k).take (n + 1)) c)
      = samples p.derivative.eval t0 dt 0 fronts.length := by
    apply ext_getElem (by simp [samples])
    intro i h1 h2
    have hi : i < fronts.length := by simpa using h1
    have hci : (scaled dt fronts[i] den).length = n + 1 := by
      simp [scaled, hfl _ (getElem_mem hi)]
    have hdt' := dot_take_samples p.eval t0 dt k 0 (scaled dt fronts[i] den) (by omega)
    rw [drop_zero] at hdt'
    have key : dot ((samples p.eval t0 dt 0 k).take (n + 1)) (scaled dt fronts[i] den)
        = p.derivative.eval (t0 + ((0 + i : Nat) : K) * dt) := by
      rw [← hci, dot_take, hdt', (hf i hi).poly hden p hp t0 dt hdt 0]
    rw [getElem_map, getElem_map, key, samples_getElem]
  have e2 : fdLoop (samples p.eval t0 dt 0 k) (k - n) (scaled dt cc cden) 0
      (replicate (k - n) 0) = samples p.derivative.eval t0 dt fronts.length (k - n) := by
    rw [hs', fdLoop_rows _ k n _ hsc (by omega), samples]
    apply map_congr_left
    intro i _
    rw [hctr.poly hcden p hp t0 dt hdt i, Nat.add_comm]
  have e3 : ((fronts.map fun c => scaled dt c den).reverse.map
      fun c => dot ((samples p.eval t0 dt 0 k).drop (k - (n + 1))) (negRev c))
      = samples p.derivative.eval t0 dt (k - fronts.length) fronts.length := by
    have : ((fronts.map fun c => scaled dt c den).reverse.map
        fun c => dot ((samples p.eval t0 dt 0 k).drop (k - (n + 1))) (negRev c))
        = backs.map fun c => dot ((samples p.eval t0 dt 0 k).drop (k - (n + 1))) (scaled dt c den) := by
      rw [hbacks, ← map_reverse, map_map, map_map]
      apply map_congr_left
      intro c _
      simp only [Function.comp]
      rw [negRev_scaled]
    rw [this]
    apply ext_getElem (by simp [samples, hbl])
    intro i h1 h2
    have hi : i < backs.length := by simpa using h1
    have hci : (scaled dt backs[i] den).length = n + 1 := by
      have hall : ∀ b ∈ backs, b.length = n + 1 := by
        intro b hbm
        rw [hbacks] at hbm
        obtain ⟨c, hc, rfl⟩ := mem_map.mp hbm
        rw [length_map, length_reverse]
        exact hfl c (mem_reverse.mp hc)
      rw [scaled, length_map]
      exact hall _ (getElem_mem hi)
    have key : dot ((samples p.eval t0 dt 0 k).drop (k - (n + 1))) (scaled dt backs[i] den)
        = p.derivative.eval (t0 + ((k - fronts.length + i : Nat) : K) * dt) := by
      rw [dot_take_samples _ _ _ _ _ _ (by omega), (hb i hi).poly hden p hp t0 dt hdt _]
      congr 4
      omega
    rw [getElem_map, key, samples_getElem]
  have hw : k - (n + 1 - 1) = k - n := rfl
  unfold ddtUniformRow
  simp only [hl, hsc, hw]
  rw [e1, e2, e3]
  -- concatenation of consecutive sample ranges
  simp only [samples, Nat.zero_add]
  apply ext_getElem (by simp; omega)
  intro i h1 h2
  simp only [length_map, length_range] at h2
  simp only [getElem_append, length_map, length_range, getElem_map, getElem_range, length_append]
  split
  · split
    · rfl
    · congr 4; omega
  · congr 4; omega

theorem ord_rows [Field K] [CharZero K] [DecidableEq K] (s : Scheme) (hs : s.mixed = true)
    (ps : List (Polynomial K)) (hps : ∀ p ∈ ps, p.natDegree ≤ s.docOrder) (t0 dt : K)
    (hdt : dt ≠ 0) (k : Nat) (hk : s.docOrder + 1 ≤ k) :
    ddtUniform (polySnapshots ps t0 dt k) dt s.docOrder
      = .ok ⟨ps.length, k, ps.map fun p => samples p.derivative.eval t0 dt 0 k⟩ := by
  have red : ∀ (fronts : List (List Int)) (den : Nat) (cc : List Int) (cden : Nat),
      (∀ p ∈ ps, ddtUniformRow (fronts.map fun c => scaled dt c den) (scaled dt cc cden)
        (samples p.eval t0 dt 0 k) = samples p.derivative.eval t0 dt 0 k) →
      (Except.ok ⟨ps.length, k, (ps.map fun p => samples p.eval t0 dt 0 k).map
        (ddtUniformRow (fronts.map fun c => scaled dt c den) (scaled dt cc cden))⟩ :
          Except Err (Mat K))
      = .ok ⟨ps.length, k, ps.map fun p => samples p.derivative.eval t0 dt 0 k⟩ := by
    intro fronts den cc cden h
    rw [map_map]
    congr 2
    apply map_congr_left
    intro p hp
    exact h p hp
  cases s <;> simp only [Scheme.mixed, Bool.false_eq_true] at hs
  · simp only [Scheme.docOrder] at hk hps ⊢
    simp only [ddtUniform, frontTable, Scheme.table]
    rw [if_neg (show ¬ (polySnapshots ps t0 dt k).ncols < _ from Nat.not_lt.mpr hk)]
    refine red _ _ _ _ ?_
    intro p hp
    refine mixed_row [[-3, 4, -1]] [[1, -4, 3]] [-1, 0, 1] 2 2 2 (by norm_num) (by norm_num) rfl
      (by decide) rfl (by decide) rfl exact_ctr2 ?_ ?_ p (hps p hp) t0 dt hdt k hk
    · intro i hi
      have : i = 0 := by simpa using hi
      subst this; exact exact_fwd2
    · intro i hi
      have : i = 0 := by simpa using hi
      subst this; exact exact_back20
  · simp only [Scheme.docOrder] at hk hps ⊢
    simp only [ddtUniform, frontTable, Scheme.table]
    rw [if_neg (show ¬ (polySnapshots ps t0 dt k).ncols < _ from Nat.not_lt.mpr hk)]
    refine red _ _ _ _ ?_
    intro p hp
    refine mixed_row [[-25, 48, -36, 16, -3], [-3, -10, 18, -6, 1]]
      [[-1, 6, -18, 10, 3], [3, -16, 36, -48, 25]] [1, -8, 0, 8, -1] 12 12 4
      (by norm_num) (by norm_num) rfl
      (by decide) rfl (by decide) rfl exact_ctr4 ?_ ?_ p (hps p hp) t0 dt hdt k hk
    · intro i hi
      have hi : i < 2 := hi
      interval_cases i
      · exact exact_fwd4
      · exact exact_front41
    · intro i hi
      have hi : i < 2 := hi
      interval_cases i
      · exact exact_back41
      · exact exact_back40
  · simp only [Scheme.docOrder] at hk hps ⊢
    simp only [ddtUniform, frontTable, Scheme.table]
    rw [if_neg (show ¬ (polySnapshots ps t0 dt k).ncols < _ from Nat.not_lt.mpr hk)]
    refine red _ _ _ _ ?_
    intro p hp
    refine mixed_row [[-147, 360, -450, 400, -225, 72, -10], [-10, -77, 150, -100, 50, -15, 2],
        [2, -24, -35, 80, -30, 8, -1]]
      [[1, -8, 30, -80, 35, 24, -2], [-2, 15, -50, 100, -150, 77, 10],
        [10, -72, 225, -400, 450, -360, 147]] [-1, 9, -45, 0, 45, -9, 1] 60 60 6
      (by norm_num) (by norm_num) rfl
      (by decide) rfl (by decide) rfl exact_ctr6 ?_ ?_ p (hps p hp) t0 dt hdt k hk
    · intro i hi
      have hi : i < 3 := hi
      interval_cases i
      · exact exact_fwd6
      · exact exact_front61
      · exact exact_front62
    · intro i hi
      have hi : i < 3 := hi
      interval_cases i
      · exact exact_back62
      · exact exact_back61
      · exact exact_back60

/-- **C31.** For every scheme, every uniform grid (start `t0`, step `dt ≠ 0`) with enough snapshots
and every list of polynomials of degree at most the order of the scheme (one per state variable),
`estimate` returns the states at the grid times `first, ..., first + width - 1` and exactly the
derivatives of the polynomials at the same times. -/
theorem C31_exact_on_polynomials [Field K] [CharZero K] [DecidableEq K] (s : Scheme)
    (ps : List (Polynomial K)) (hps : ∀ p ∈ ps, p.natDegree ≤ s.docOrder) (t0 dt : K)
    (hdt : dt ≠ 0) (k : Nat) (hk : s.minSnapshots ≤ k) :
    s.estimate dt (polySnapshots ps t0 dt k) none
      = .ok (⟨ps.length, s.width k, ps.map fun p => samples p.eval t0 dt s.first (s.width k)⟩,
          ⟨ps.length, s.width k,
            ps.map fun p => samples p.derivative.eval t0 dt s.first (s.width k)⟩, none) := by
  by_cases hm : s.mixed = true
  · have ho : s.order = s.docOrder := by cases s <;> simp [Scheme.mixed] at hm <;> rfl
    have ht : s.table = none := by cases s <;> simp [Scheme.mixed] at hm <;> rfl
    have h0 : s.first = 0 := by cases s <;> simp [Scheme.mixed] at hm <;> rfl
    have hw : s.width k = k := by simp [Scheme.width, hm]
    simp only [Scheme.minSnapshots, hm, if_true] at hk
    simp only [Scheme.estimate, Scheme.run, ht, ho, ord_rows s hm ps hps t0 dt hdt k hk, h0, hw]
    rfl
  · have hmin : s.minSnapshots = s.docOrder := by simp [Scheme.minSnapshots, hm]
    have hw : s.width k = k - s.docOrder := by simp [Scheme.width, hm]
    rw [hmin] at hk
    rw [hw]
    cases s with
    | fwd1 => exact pure_estimate .fwd _ _ 1 0 rfl (by norm_num) exact_fwd1 (cols_fwd 1 (by norm_num)) (by norm_num) ps hps t0 dt hdt k hk
    | fwd2 => exact pure_estimate .fwd _ _ 2 0 rfl (by norm_num) exact_fwd2 (cols_fwd 2 (by norm_num)) (by norm_num) ps hps t0 dt hdt k hk
    | fwd3 => exact pure_estimate .fwd _ _ 3 0 rfl (by norm_num) exact_fwd3 (cols_fwd 3 (by norm_num)) (by norm_num) ps hps t0 dt hdt k hk
    | fwd4 => exact pure_estimate .fwd _ _ 4 0 rfl (by norm_num) exact_fwd4 (cols_fwd 4 (by norm_num)) (by norm_num) ps hps t0 dt hdt k hk
    | fwd5 => exact pure_estimate .fwd _ _ 5 0 rfl (by norm_num) exact_fwd5 (cols_fwd 5 (by norm_num)) (by norm_num) ps hps t0 dt hdt k hk
    | fwd6 => exact pure_estimate .fwd _ _ 6 0 rfl (by norm_num) exact_fwd6 (cols_fwd 6 (by norm_num)) (by norm_num) ps hps t0 dt hdt k hk
    | bwd1 => exact pure_estimate .bwd _ _ 1 1 rfl (by norm_num) exact_bwd1 (cols_bwd 1) (by norm_num) ps hps t0 dt hdt k hk
    | bwd2 => exact pure_estimate .bwd _ _ 2 2 rfl (by norm_num) exact_bwd2 (cols_bwd 2) (by norm_num) ps hps t0 dt hdt k hk
    | bwd3 => exact pure_estimate .bwd _ _ 3 3 rfl (by norm_num) exact_bwd3 (cols_bwd 3) (by norm_num) ps hps t0 dt hdt k hk
    | bwd4 => exact pure_estimate .bwd _ _ 4 4 rfl (by norm_num) exact_bwd4 (cols_bwd 4) (by norm_num) ps hps t0 dt hdt k hk
    | bwd5 => exact pure_estimate .bwd _ _ 5 5 rfl (by norm_num) exact_bwd5 (cols_bwd 5) (by norm_num) ps hps t0 dt hdt k hk
    | bwd6 => exact pure_estimate .bwd _ _ 6 6 rfl (by norm_num) exact_bwd6 (cols_bwd 6) (by norm_num) ps hps t0 dt hdt k hk
    | ctr2 => exact pure_estimate .ctr _ _ 2 1 rfl (by norm_num) exact_ctr2 (cols_ctr 2 1 (by norm_num) rfl) (by norm_num) ps hps t0 dt hdt k hk
    | ctr4 => exact pure_estimate .ctr _ _ 4 2 rfl (by norm_num) exact_ctr4 (cols_ctr 4 2 (by norm_num) rfl) (by norm_num) ps hps t0 dt hdt k hk
    | ctr6 => exact pure_estimate .ctr _ _ 6 3 rfl (by norm_num) exact_ctr6 (cols_ctr 6 3 (by norm_num) rfl) (by norm_num) ps hps t0 dt hdt k hk
    | ord2 => simp [Scheme.mixed] at hm
    | ord4 => simp [Scheme.mixed] at hm
    | ord6 => simp [Scheme.mixed] at hm

/-- **C31, error branch.** With fewer snapshots than the scheme needs, `estimate` raises
`ValueError` (and only then, given no inputs). -/
theorem C31_too_few_snapshots [Field K] [DecidableEq K] (s : Scheme) (dt : K) (A : Mat K) :
    s.estimate dt A none = .error .value ↔ A.ncols < s.minSnapshots := by
  have pure : ∀ mode c den n, s.table = some (mode, c, den) → c.length = n + 1 →
      s.minSnapshots = n → (s.estimate dt A none = .error .value ↔ A.ncols < s.minSnapshots) := by
    intro mode c den n ht hc hmin
    have hl : (scaled dt c den).length - 1 = n := by simp [scaled, hc]
    simp only [Scheme.estimate, Scheme.run, ht, finiteDifference, hl, hmin]
    split <;> simp_all
  have mixed : ∀ fr den ctr m cc cden n, s.table = none → s.order = n →
      frontTable n = some (fr, den, ctr) → Scheme.table ctr = some (m, cc, cden) →
      s.minSnapshots = n + 1 →
      (s.estimate dt A none = .error .value ↔ A.ncols < s.minSnapshots) := by
    intro fr den ctr m cc cden n ht ho hf hc hmin
    simp only [Scheme.estimate, Scheme.run, ht, ddtUniform, ho, hf, hc, hmin]
    by_cases h : A.ncols < n + 1
    · simp only [h, iff_true]; rfl
    · simp only [h, iff_false]
      intro h2
      cases h2
  cases s with
  | fwd1 => exact pure _ _ _ 1 rfl rfl rfl
  | fwd2 => exact pure _ _ _ 2 rfl rfl rfl
  | fwd3 => exact pure _ _ _ 3 rfl rfl rfl
  | fwd4 => exact pure _ _ _ 4 rfl rfl rfl
  | fwd5 => exact pure _ _ _ 5 rfl rfl rfl
  | fwd6 => exact pure _ _ _ 6 rfl rfl rfl
  | bwd1 => exact pure _ _ _ 1 rfl rfl rfl
  | bwd2 => exact pure _ _ _ 2 rfl rfl rfl
  | bwd3 => exact pure _ _ _ 3 rfl rfl rfl
  | bwd4 => exact pure _ _ _ 4 rfl rfl rfl
  | bwd5 => exact pure _ _ _ 5 rfl rfl rfl
  | bwd6 => exact pure _ _ _ 6 rfl rfl rfl
  | ctr2 => exact pure _ _ _ 2 rfl rfl rfl
  | ctr4 => exact pure _ _ _ 4 rfl rfl rfl
  | ctr6 => exact pure _ _ _ 6 rfl rfl rfl
  | ord2 => exact mixed _ _ _ _ _ _ 2 rfl rfl rfl rfl rfl
  | ord4 => exact mixed _ _ _ _ _ _ 4 rfl rfl rfl rfl rfl
  | ord6 => exact mixed _ _ _ _ _ _ 6 rfl rfl rfl rfl rfl

-- a concrete instance: t ↦ 1 + t³ sampled at 7 times with step 1/2, fourth-order scheme
example : (Polynomial.C 1 + Polynomial.X ^ 3 : Polynomial ℚ).natDegree ≤ Scheme.ord4.docOrder := by
  have : (Polynomial.C 1 + Polynomial.X ^ 3 : Polynomial ℚ).natDegree ≤ 3 := by
    refine (Polynomial.natDegree_add_le _ _).trans ?_
    simp
  exact this.trans (by decide)
example : Scheme.ord4.estimate (1 / 2 : ℚ) ⟨1, 6, [[1, 9/8, 2, 35/8, 9, 133/8]]⟩ none
    = .ok (⟨1, 6, [[1, 9/8, 2, 35/8, 9, 133/8]]⟩, ⟨1, 6, [[0, 3/4, 3, 27/4, 12, 75/4]]⟩, none) := by
  decide +kernel

/-! ## C32 -/

theorem mask_eq {α : Type*} (s : Scheme) (l : List α) (hk : s.minSnapshots ≤ l.length) :
    s.mask l = .ok ((l.drop s.first).take (s.width l.length)) := by
  have fwd : ∀ n : Nat, 0 < n → pySlice 0 (some (-(n : Int))) l = (l.drop 0).take (l.length - n) := by
    intro n hn; rw [pySlice_fwd n hn, drop_zero]
  have bwd : ∀ n : Nat, pySlice (n : Int) none l = (l.drop n).take (l.length - n) := by
    intro n; rw [pySlice_bwd, take_of_length_le (by simp)]
  have ctr : ∀ n : Nat, 0 < n → pySlice (n : Int) (some (-(n : Int))) l
      = (l.drop n).take (l.length - 2 * n) := by
    intro n hn
    rw [pySlice_ctr n hn, drop_take]
    congr 1
    omega
  cases s with
  | fwd1 => exact congrArg Except.ok (fwd 1 (by norm_num))
  | fwd2 => exact congrArg Except.ok (fwd 2 (by norm_num))
  | fwd3 => exact congrArg Except.ok (fwd 3 (by norm_num))
  | fwd4 => exact congrArg Except.ok (fwd 4 (by norm_num))
  | fwd5 => exact congrArg Except.ok (fwd 5 (by norm_num))
  | fwd6 => exact congrArg Except.ok (fwd 6 (by norm_num))
  | bwd1 => exact congrArg Except.ok (bwd 1)
  | bwd2 => exact congrArg Except.ok (bwd 2)
  | bwd3 => exact congrArg Except.ok (bwd 3)
  | bwd4 => exact congrArg Except.ok (bwd 4)
  | bwd5 => exact congrArg Except.ok (bwd 5)
  | bwd6 => exact congrArg Except.ok (bwd 6)
  | ctr2 => exact congrArg Except.ok (ctr 1 (by norm_num))
  | ctr4 => exact congrArg Except.ok (ctr 2 (by norm_num))
  | ctr6 => exact congrArg Except.ok (ctr 3 (by norm_num))
  | ord2 => exact congrArg Except.ok (by simp [Scheme.first, Scheme.width, Scheme.mixed])
  | ord4 => exact congrArg Except.ok (by simp [Scheme.first, Scheme.width, Scheme.mixed])
  | ord6 => exact congrArg Except.ok (by simp [Scheme.first, Scheme.width, Scheme.mixed])

theorem mask_total {α : Type*} (s : Scheme) (l : List α) : ∃ l', s.mask l = .ok l' := by
  cases s <;> exact ⟨_, rfl⟩

theorem length_fdLoop [CommSemiring K] [DecidableEq K] (row : List K) (w : Nat) (cs : List K) (j : Nat)
    (acc : List K) (hacc : acc.length = w) (h : j + cs.length + w ≤ row.length + 1) :
    (fdLoop row w cs j acc).length = w := by
  rw [fdLoop_eq row w cs j acc hacc h]; simp

/-- The states, derivatives and inputs returned by a scheme, in terms of `mask`. -/
theorem run_aligned [Field K] [DecidableEq K] (s : Scheme) (dt : K) (A : Mat K) (hA : A.WF)
    (hk : s.minSnapshots ≤ A.ncols) (U : Option (Mat K)) (hU : ∀ M ∈ U, M.WF ∧ M.ncols = A.ncols) :
    ∃ D : Mat K, s.run A dt U
        = .ok (⟨A.nrows, s.width A.ncols, A.rows.map fun r =>
              (r.drop s.first).take (s.width A.ncols)⟩, D,
            U.map fun M => ⟨M.nrows, s.width A.ncols, M.rows.map fun r =>
              (r.drop s.first).take (s.width A.ncols)⟩) ∧
      D.WF ∧ D.nrows = A.nrows ∧ D.ncols = s.width A.ncols := by
  have pure : ∀ mode c den n, s.table = some (mode, c, den) → c.length = n + 1 →
      s.docOrder = n → s.mixed = false →
      (∀ l : List K, s.mask l = .ok (mode.cols n l)) → ∃ D : Mat K, s.run A dt U
        = .ok (⟨A.nrows, s.width A.ncols, A.rows.map fun r =>
              (r.drop s.first).take (s.width A.ncols)⟩, D,
            U.map fun M => ⟨M.nrows, s.width A.ncols, M.rows.map fun r =>
              (r.drop s.first).take (s.width A.ncols)⟩) ∧
      D.WF ∧ D.nrows = A.nrows ∧ D.ncols = s.width A.ncols := by
    intro mode c den n ht hc hdoc hmix hmask
    have hl : (scaled dt c den).length = n + 1 := by simp [scaled, hc]
    have hmin : s.minSnapshots = n := by simp [Scheme.minSnapshots, hmix, hdoc]
    have hw : s.width A.ncols = A.ncols - n := by simp [Scheme.width, hmix, hdoc]
    rw [hmin] at hk
    have hrow : ∀ r : List K, r.length = A.ncols →
        mode.cols n r = (r.drop s.first).take (s.width A.ncols) := by
      intro r hr
      have := hmask r
      rw [mask_eq s r (by rw [hmin, hr]; exact hk), hr] at this
      simpa using this.symm
    have e1 : A.rows.map (mode.cols n) = A.rows.map fun r =>
        (r.drop s.first).take (s.width A.ncols) :=
      map_congr_left fun r hr => hrow r (hA.2 r hr)
    have e2 : U.map (Mat.mapCols (mode.cols n) (A.ncols - n))
        = U.map fun M => ⟨M.nrows, s.width A.ncols, M.rows.map fun r =>
              (r.drop s.first).take (s.width A.ncols)⟩ := by
      cases U with
      | none => rfl
      | some M =>
        obtain ⟨hMw, hMc⟩ := hU M rfl
        simp only [Option.map_some, Mat.mapCols, hw]
        congr 2
        apply map_congr_left
        intro r hr
        rw [hrow r ((hMw.2 r hr).trans hMc), hw]
    refine ⟨⟨A.nrows, A.ncols - n, A.rows.map fun row =>
      fdLoop row (A.ncols - n) (scaled dt c den) 0 (replicate (A.ncols - n) 0)⟩, ?_, ?_, rfl, hw.symm⟩
    · simp only [Scheme.run, ht, finiteDifference, hl, Nat.add_sub_cancel]
      rw [if_neg (Nat.not_lt.mpr hk), e2, Mat.mapCols, e1, hw]
    · refine ⟨by simpa using hA.1, ?_⟩
      intro r hr
      obtain ⟨r', hr', rfl⟩ := mem_map.mp hr
      exact length_fdLoop _ _ _ _ _ (by simp) (by rw [hl, hA.2 r' hr']; omega)
  have mixed : ∀ fr den ctr m cc cden n, s.table = none → s.order = n →
      frontTable n = some (fr, den, ctr) → Scheme.table ctr = some (m, cc, cden) →
      s.docOrder = n → s.mixed = true → s.first = 0 → n = 2 * fr.length → cc.length = n + 1 →
      ∃ D : Mat K, s.run A dt U
        = .ok (⟨A.nrows, s.width A.ncols, A.rows.map fun r =>
              (r.drop s.first).take (s.width A.ncols)⟩, D,
            U.map fun M => ⟨M.nrows, s.width A.ncols, M.rows.map fun r =>
              (r.drop s.first).take (s.width A.ncols)⟩) ∧
      D.WF ∧ D.nrows = A.nrows ∧ D.ncols = s.width A.ncols := by
    intro fr den ctr m cc cden n ht ho hf hc hdoc hmix h0 hn hcl
    have hmin : s.minSnapshots = n + 1 := by simp [Scheme.minSnapshots, hmix, hdoc]
    have hw : s.width A.ncols = A.ncols := by simp [Scheme.width, hmix]
    rw [hmin] at hk
    have idt : ∀ M : Mat K, M.WF → M.ncols = A.ncols →
        M = ⟨M.nrows, A.ncols, M.rows.map fun r => (r.drop 0).take A.ncols⟩ := by
      intro M hM hMc
      have : M.rows.map (fun r => (r.drop 0).take A.ncols) = M.rows := by
        conv_rhs => rw [← map_id M.rows]
        apply map_congr_left
        intro r hr
        rw [drop_zero, take_of_length_le (by rw [hM.2 r hr, hMc])]; rfl
      rw [this, ← hMc]
    have e2 : (U.map fun M => (⟨M.nrows, A.ncols, M.rows.map fun r =>
        (r.drop 0).take A.ncols⟩ : Mat K)) = U := by
      cases U with
      | none => rfl
      | some M =>
        obtain ⟨hMw, hMc⟩ := hU M rfl
        simp only [Option.map_some]
        rw [← idt M hMw hMc]
    have hcs : (scaled dt cc cden).length = n + 1 := by simp [scaled, hcl]
    refine ⟨⟨A.nrows, A.ncols, A.rows.map
      (ddtUniformRow (fr.map fun c => scaled dt c den) (scaled dt cc cden))⟩, ?_, ?_, rfl, hw.symm⟩
    · rw [hw, h0, e2, ← idt A hA rfl]
      simp only [Scheme.run, ht, ddtUniform, ho, hf, hc]
      rw [if_neg (Nat.not_lt.mpr hk)]
      rfl
    · refine ⟨by simpa using hA.1, ?_⟩
      intro r hr
      obtain ⟨r', hr', rfl⟩ := mem_map.mp hr
      have hr'l := hA.2 r' hr'
      simp only [ddtUniformRow, length_append, length_map, length_reverse, hcs]
      rw [length_fdLoop _ _ _ _ _ (by simp) (by rw [hcs]; omega), hr'l]
      show _ = A.ncols
      omega
  cases s with
  | fwd1 => exact pure _ _ _ 1 rfl rfl rfl rfl (fun _ => rfl)
  | fwd2 => exact pure _ _ _ 2 rfl rfl rfl rfl (fun _ => rfl)
  | fwd3 => exact pure _ _ _ 3 rfl rfl rfl rfl (fun _ => rfl)
  | fwd4 => exact pure _ _ _ 4 rfl rfl rfl rfl (fun _ => rfl)
  | fwd5 => exact pure _ _ _ 5 rfl rfl rfl rfl (fun _ => rfl)
  | fwd6 => exact pure _ _ _ 6 rfl rfl rfl rfl (fun _ => rfl)
  | bwd1 => exact pure _ _ _ 1 rfl rfl rfl rfl (fun _ => rfl)
  | bwd2 => exact pure _ _ _ 2 rfl rfl rfl rfl (fun _ => rfl)
  | bwd3 => exact pure _ _ _ 3 rfl rfl rfl rfl (fun _ => rfl)
  | bwd4 => exact pure _ _ _ 4 rfl rfl rfl rfl (fun _ => rfl)
  | bwd5 => exact pure _ _ _ 5 rfl rfl rfl rfl (fun _ => rfl)
  | bwd6 => exact pure _ _ _ 6 rfl rfl rfl rfl (fun _ => rfl)
  | ctr2 => exact pure _ _ _ 2 rfl rfl rfl rfl (fun _ => rfl)
  | ctr4 => exact pure _ _ _ 4 rfl rfl rfl rfl (fun _ => rfl)
  | ctr6 => exact pure _ _ _ 6 rfl rfl rfl rfl (fun _ => rfl)
  | ord2 => exact mixed _ _ _ _ _ _ 2 rfl rfl rfl rfl rfl rfl rfl rfl rfl
  | ord4 => exact mixed _ _ _ _ _ _ 4 rfl rfl rfl rfl rfl rfl rfl rfl rfl
  | ord6 => exact mixed _ _ _ _ _ _ 6 rfl rfl rfl rfl rfl rfl rfl rfl rfl

/-- **C32.** For every scheme and every snapshot matrix with enough columns and inputs (one- or
two-dimensional) with the same number of columns, `estimate` returns states, derivatives and inputs
with the same number `k'` of columns; column `j` of the returned states and inputs is column
`first + j` of the given ones (the snapshot whose derivative is estimated, see C31); and `mask`
selects exactly these columns from every array with `k` entries along its last axis. -/
theorem C32_estimate_aligned [Field K] [DecidableEq K] (s : Scheme) (dt : K) (A : Mat K) (hA : A.WF)
    (hk : s.minSnapshots ≤ A.ncols) (U : Option (InputArr K))
    (hU : ∀ M ∈ U, M.toMat.WF ∧ M.toMat.ncols = A.ncols) :
    ∃ (S D : Mat K) (V : Option (Mat K)), s.estimate dt A U = .ok (S, D, V) ∧
      S.WF ∧ D.WF ∧ S.nrows = A.nrows ∧ D.nrows = A.nrows ∧
      S.ncols = s.width A.ncols ∧ D.ncols = s.width A.ncols ∧
      S.rows = A.rows.map (fun r => (r.drop s.first).take (s.width A.ncols)) ∧
      V = U.map (fun M => ⟨M.toMat.nrows, s.width A.ncols,
        M.toMat.rows.map fun r => (r.drop s.first).take (s.width A.ncols)⟩) ∧
      ∀ {α : Type} (l : List α), l.length = A.ncols →
        s.mask l = .ok ((l.drop s.first).take (s.width A.ncols)) := by
  have hfw : s.first + s.width A.ncols ≤ A.ncols := by
    cases s <;> simp [Scheme.first, Scheme.width, Scheme.mixed, Scheme.docOrder,
      Scheme.minSnapshots] at hk ⊢ <;> omega
  have hmask : ∀ {α : Type} (l : List α), l.length = A.ncols →
        s.mask l = .ok ((l.drop s.first).take (s.width A.ncols)) := by
    intro α l hl
    rw [mask_eq s l (by rw [hl]; exact hk), hl]
  obtain ⟨D, hD, hDw, hDr, hDc⟩ := run_aligned s dt A hA hk (U.map InputArr.toMat) (by
    intro M hM
    cases U with
    | none => simp at hM
    | some V =>
      simp only [Option.map_some, Option.mem_def, Option.some.injEq] at hM
      subst hM
      exact hU V rfl)
  refine ⟨⟨A.nrows, s.width A.ncols, A.rows.map fun r =>
      (r.drop s.first).take (s.width A.ncols)⟩, D, _, ?_, ?_, hDw, rfl, hDr, rfl, hDc, rfl, rfl, hmask⟩
  · cases U with
    | none => exact hD
    | some V =>
      obtain ⟨-, hVc⟩ := hU V rfl
      simp only [Scheme.estimate, hVc, ne_eq, not_true_eq_false, if_false]
      exact hD
  · refine ⟨by simpa using hA.1, ?_⟩
    intro r hr
    obtain ⟨r', hr', rfl⟩ := mem_map.mp hr
    rw [length_take, length_drop, hA.2 r' hr']
    simp only
    omega

/-- **C32, error branch.** Inputs with a different number of columns are rejected. -/
theorem C32_misaligned_inputs_rejected [Field K] [DecidableEq K] (s : Scheme) (dt : K) (A : Mat K)
    (U : InputArr K) (h : U.toMat.ncols ≠ A.ncols) :
    s.estimate dt A (some U) = .error .dimensionality := by
  simp [Scheme.estimate, h]

example : Scheme.bwd2.minSnapshots ≤ (⟨1, 4, [[0, 1, 4, 9]]⟩ : Mat ℚ).ncols := by decide
example : Scheme.bwd2.estimate (1 : ℚ) ⟨1, 4, [[0, 1, 4, 9]]⟩ (some (.vec [10, 11, 12, 13]))
    = .ok (⟨1, 2, [[4, 9]]⟩, ⟨1, 2, [[4, 6]]⟩, some ⟨1, 2, [[12, 13]]⟩) := by decide +kernel

/-! ## C33 -/

/-- The property C33 for one scheme and one number of snapshots: the reference derivatives used by
`verify()` are those at the times of the returned states. -/
def VerifyAligned (s : Scheme) (k : Nat) : Prop :=
  ∀ (dQ : List ℚ) (total : ℚ), dQ.length = k →
    s.mask dQ = .ok (verifyTruth total dQ (s.width k))

/-- **C33 is false for backward and central schemes.** The misplaced parenthesis makes `start = 0`
always, so `verify()` compares matching times exactly for the schemes whose first estimate belongs
to the first snapshot, and for no other scheme. -/
theorem C33_verify_aligned_iff (s : Scheme) (k : Nat) (hk : s.minSnapshots < k) :
    VerifyAligned s k ↔ s.first = 0 := by
  have hw : 0 < s.width k := by
    simp only [Scheme.minSnapshots] at hk
    simp only [Scheme.width]
    split <;> simp_all <;> omega
  have hfw : s.first + s.width k ≤ k := by
    cases s <;> simp [Scheme.first, Scheme.width, Scheme.mixed, Scheme.docOrder,
      Scheme.minSnapshots] at hk ⊢ <;> omega
  have hstart : ∀ total : ℚ, verifyStart [total] = 0 := fun _ => rfl
  constructor
  · intro h
    have h1 := h ((range k).map fun i : Nat => (i : ℚ)) 0 (by simp)
    rw [mask_eq s _ (by simpa using hk.le)] at h1
    simp only [length_map, length_range, verifyTruth, hstart, drop_zero, Except.ok.injEq] at h1
    have h2 := congrArg (fun l : List ℚ => l.getD 0 0) h1
    simp only [getD_eq_getElem?_getD, getElem?_take_of_lt hw, getElem?_drop, Nat.add_zero] at h2
    have hf : s.first < k := by omega
    have h0 : 0 < k := by omega
    simp [hf, h0] at h2
    exact h2
  · intro h dQ total hl
    rw [mask_eq s _ (by rw [hl]; exact hk.le), h, hl, verifyTruth, hstart]

/-- **C33, negation with a witness.** For the second-order backward scheme on `q(t) = t²` at times
`0, 1, 2, 3` the estimates are exact at the returned times, yet `verify()` reports differences of
size 4. -/
theorem C33_verify_misaligned_witness :
    Scheme.bwd2.estimate (1 : ℚ) ⟨1, 4, [[0, 1, 4, 9]]⟩ none
      = .ok (⟨1, 2, [[4, 9]]⟩, ⟨1, 2, [[4, 6]]⟩, none) ∧
    Scheme.bwd2.mask ([0, 2, 4, 6] : List ℚ) = .ok [4, 6] ∧
    vsub [4, 6] (verifyTruth 100 ([0, 2, 4, 6] : List ℚ) 2) = [4, 4] ∧
    ¬ VerifyAligned .bwd2 4 := by
  refine ⟨by decide +kernel, by decide +kernel, by decide +kernel, ?_⟩
  rw [C33_verify_aligned_iff .bwd2 4 (by decide)]
  decide

example : VerifyAligned .ord4 1001 ∧ ¬ VerifyAligned .ctr6 1001 := by
  constructor
  · rw [C33_verify_aligned_iff .ord4 1001 (by decide)]; rfl
  · rw [C33_verify_aligned_iff .ctr6 1001 (by decide)]; decide

/-! ## C34 -/

theorem quad_eval [Field K] (p : Polynomial K) (hp : p.natDegree ≤ 2) (x : K) :
    p.eval x = p.coeff 0 + p.coeff 1 * x + p.coeff 2 * x ^ 2 ∧
    p.derivative.eval x = p.coeff 1 + 2 * p.coeff 2 * x := by
  constructor
  · rw [Polynomial.eval_eq_sum_range' (Nat.lt_succ_of_le hp) x]
    simp [Finset.sum_range_succ]
  · conv_lhs => rw [p.as_sum_range_C_mul_X_pow' (Nat.lt_succ_of_le hp)]
    rw [Polynomial.derivative_sum, Polynomial.eval_finsetSum]
    simp [Finset.sum_range_succ, Polynomial.derivative_X_pow]
    ring

theorem gradTail_exact [Field K] [LinearOrder K] [IsStrictOrderedRing K] (a b c : K) (t0 t1 t2 : K)
    (ts : List K) (h : (t0 :: t1 :: t2 :: ts).Pairwise (· < ·)) :
    gradTail (t0 :: t1 :: t2 :: ts) ((t0 :: t1 :: t2 :: ts).map fun x => a + b * x + c * x ^ 2)
      = (t1 :: t2 :: ts).map fun x => b + 2 * c * x := by
  have h01 : t0 < t1 := (pairwise_cons.mp h).1 t1 (by simp)
  have h12 : t1 < t2 := (pairwise_cons.mp (pairwise_cons.mp h).2).1 t2 (by simp)
  have e1 : t1 - t0 ≠ 0 := sub_ne_zero.mpr h01.ne'
  have e2 : t2 - t1 ≠ 0 := sub_ne_zero.mpr h12.ne'
  have e3 : t1 - t0 + (t2 - t1) ≠ 0 := by
    have : t1 - t0 + (t2 - t1) = t2 - t0 := by ring
    rw [this]; exact sub_ne_zero.mpr (h01.trans h12).ne'
  have hint : ∀ x y z : K, y - x ≠ 0 → z - y ≠ 0 → y - x + (z - y) ≠ 0 →
      gradInterior (y - x) (z - y) (a + b * x + c * x ^ 2) (a + b * y + c * y ^ 2)
        (a + b * z + c * z ^ 2) = b + 2 * c * y := by
    intro x y z g1 g2 g3
    rw [gradInterior]
    field_simp
    ring
  induction ts generalizing t0 t1 t2 with
  | nil =>
    simp only [map_cons, map_nil, gradTail]
    rw [hint t0 t1 t2 e1 e2 e3]
    congr 2
    rw [gradLast]
    field_simp
    ring
  | cons t3 ts ih =>
    simp only [map_cons]
    rw [gradTail, hint t0 t1 t2 e1 e2 e3]
    congr 1
    have hp' := (pairwise_cons.mp h).2
    have h23 : t2 < t3 := (pairwise_cons.mp (pairwise_cons.mp hp').2).1 t3 (by simp)
    have := ih t1 t2 t3 hp' h12 h23 e2 (sub_ne_zero.mpr h23.ne') (by
      have : t2 - t1 + (t3 - t2) = t3 - t1 := by ring
      rw [this]; exact sub_ne_zero.mpr (h12.trans h23).ne')
    simp only [map_cons] at this
    exact this
    · simp

theorem gradRow_exact [Field K] [LinearOrder K] [IsStrictOrderedRing K] (t : List K)
    (ht : t.Pairwise (· < ·)) (hl : 3 ≤ t.length) (p : Polynomial K) (hp : p.natDegree ≤ 2) :
    gradRow t (t.map p.eval) = .ok (t.map p.derivative.eval) := by
  have e : t.map p.eval = t.map fun x => p.coeff 0 + p.coeff 1 * x + p.coeff 2 * x ^ 2 :=
    map_congr_left fun x _ => (quad_eval p hp x).1
  have e' : t.map p.derivative.eval = t.map fun x => p.coeff 1 + 2 * p.coeff 2 * x :=
    map_congr_left fun x _ => (quad_eval p hp x).2
  rw [e, e']
  match t, hl, ht with
  | t0 :: t1 :: t2 :: ts, _, ht =>
    have h01 : t0 < t1 := (pairwise_cons.mp ht).1 t1 (by simp)
    have h12 : t1 < t2 := (pairwise_cons.mp (pairwise_cons.mp ht).2).1 t2 (by simp)
    have e1 : t1 - t0 ≠ 0 := sub_ne_zero.mpr h01.ne'
    have e2 : t2 - t1 ≠ 0 := sub_ne_zero.mpr h12.ne'
    have e3 : t1 - t0 + (t2 - t1) ≠ 0 := by
      have : t1 - t0 + (t2 - t1) = t2 - t0 := by ring
      rw [this]; exact sub_ne_zero.mpr (h01.trans h12).ne'
    simp only [gradRow, map_cons]
    have := gradTail_exact (p.coeff 0) (p.coeff 1) (p.coeff 2) t0 t1 t2 ts ht
    simp only [map_cons] at this
    rw [this]
    congr 2
    rw [gradFirst]
    field_simp
    ring

/-- **C34.** On every strictly increasing grid with at least three points (uniform or not), the
nonuniform differencer returns the exact derivative at every grid point of every state variable
that is a polynomial of degree at most 2 in time. -/
theorem C34_nonuniform_exact_on_quadratics [Field K] [LinearOrder K] [IsStrictOrderedRing K]
    (t : List K) (ht : t.Pairwise (· < ·)) (hl : 3 ≤ t.length) (ps : List (Polynomial K))
    (hps : ∀ p ∈ ps, p.natDegree ≤ 2) :
    ddtNonuniform t ⟨ps.length, t.length, ps.map fun p => t.map p.eval⟩
      = .ok ⟨ps.length, t.length, ps.map fun p => t.map p.derivative.eval⟩ := by
  have : (ps.map fun p => t.map p.eval).mapM (gradRow t)
      = (.ok (ps.map fun p => t.map p.derivative.eval) : Except Err _) := by
    induction ps with
    | nil => rfl
    | cons p ps ih =>
      rw [map_cons, mapM_cons, gradRow_exact t ht hl p (hps p mem_cons_self),
        ih fun p hp => hps p (mem_cons_of_mem _ hp)]
      rfl
  simp only [ddtNonuniform, ne_eq, not_true_eq_false, if_false, this]
  rfl

/-- **C34, error branches.** Misaligned data are rejected, and so are fewer than three points. -/
theorem C34_errors [Field K] (t : List K) (A : Mat K) :
    (A.ncols ≠ t.length → ddtNonuniform t A = .error .dimensionality) ∧
    (A.ncols = t.length → t.length < 3 → A.rows ≠ [] → ddtNonuniform t A = .error .value) := by
  constructor
  · intro h; simp [ddtNonuniform, h]
  · intro h h3 hr
    simp only [ddtNonuniform, h, ne_eq, not_true_eq_false, if_false]
    have hg : ∀ f : List K, gradRow t f = .error .value := by
      intro f
      match t, h3 with
      | [], _ => rfl
      | [_], _ => rfl
      | [_, _], _ => rfl
    cases hrs : A.rows with
    | nil => exact absurd hrs hr
    | cons r rs => rw [mapM_cons, hg]; rfl

example : ([0, 1, 3, 7] : List ℚ).Pairwise (· < ·) := by decide +kernel
example : ddtNonuniform ([0, 1, 3, 7] : List ℚ) ⟨1, 4, [[0, 1, 9, 49]]⟩
    = .ok ⟨1, 4, [[0, 2, 6, 14]]⟩ := by decide +kernel

end Opinf
