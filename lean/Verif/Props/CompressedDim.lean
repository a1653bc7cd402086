import Verif.Lemmas.CompressedDim
import Verif.Props.Kron

/-!
# C104: the state dimension of full and compressed Kronecker matrices

`compress_entries()` and `expand_entries()` find the state dimension from the number of columns.
-/

namespace Opinf

open List

variable {K : Type}

theorem compress_code [AddMonoid K] (k : Kind) (H : List K ⊕ Mat K) :
    k.compressEntries H = k.compress (rowsOf H) := by
  simp only [Kind.compressEntries, Kind.compress]
  cases h : exactRoot k.deg (rowsOf H).ncols with
  | some r =>
    have hr := exactRoot_some h
    rw [← hr, nearestRoot_pow (deg_pos k).ne', if_pos rfl]
  | none =>
    rw [if_neg]
    intro hc
    rw [← hc, exactRoot_pow (deg_pos k).ne'] at h
    cases h

/-- The loop finds the dimension or gives up, for any number of columns `operator_dimension(r)`. -/
theorem dimOfColumns_cases (k : Kind) (r : Nat) :
    k.dimOfColumns (k.dim r) = .ok r ∨ k ≠ .quad ∧ k.dimOfColumns (k.dim r) = .error .value := by
  cases k with
  | quad =>
    refine Or.inl ?_
    simp only [Kind.dimOfColumns, Kind.candidateDim, quadDimOf_dim]
    rw [if_pos ⟨by omega, by simp⟩]
    simp
  | cubic =>
    simp only [Kind.dimOfColumns, Kind.candidateDim, cubicDimOf]
    cases h : newtonLoop (1 / 4) (cubicStep (Kind.cubic.dim r)) 10 (floorRoot 3 (Kind.cubic.dim r)) with
    | none => exact Or.inr ⟨by decide, rfl⟩
    | some y =>
      left
      have hx : ((floorRoot 3 (Kind.cubic.dim r) : Nat) : ℚ) ≤ r := by exact_mod_cast cubic_start_le r
      have hy := newtonLoop_sound hx (cubicStep_above r _ (Nat.cast_nonneg _))
        (fun x hx => cubicStep_above r x ((Nat.cast_nonneg r).trans hx)) (cubicStep_near r) h
      simp only [hy]
      rw [if_pos ⟨by omega, by simp⟩]
      simp
  | quartic =>
    cases r with
    | zero => exact Or.inl (by decide +kernel)
    | succ r =>
    simp only [Kind.dimOfColumns, Kind.candidateDim, quarticDimOf]
    cases h : newtonLoop (1 / 4) (quarticStep (Kind.quartic.dim (r + 1))) 10
        (floorRoot 4 (Kind.quartic.dim (r + 1))) with
    | none => exact Or.inr ⟨by decide, rfl⟩
    | some y =>
      left
      have hx : ((floorRoot 4 (Kind.quartic.dim (r + 1)) : Nat) : ℚ) ≤ (r + 1 : Nat) := by
        exact_mod_cast quartic_start_le (r + 1)
      have hy := newtonLoop_sound hx (quarticStep_above (r + 1) _ (Nat.cast_nonneg _))
        (fun x hx => quarticStep_above (r + 1) x ((Nat.cast_nonneg (r + 1)).trans hx))
        (quarticStep_near (r + 1) (by omega)) h
      simp only [hy]
      rw [if_pos ⟨by omega, by simp⟩]
      simp

/-- Ten steps suffice for the cubic equation. -/
theorem cubic_converges (r : Nat) (hr : r ≤ 10 ^ 51) :
    newtonLoop (1 / 4) (cubicStep (Kind.cubic.dim r)) 10 (floorRoot 3 (Kind.cubic.dim r)) ≠ none := by
  rcases Nat.eq_zero_or_pos r with rfl | hpos
  · decide +kernel
  intro h
  have h9 := (newtonLoop_none.1 h) 9 (by omega)
  have hr0 : (0 : ℚ) < r := by exact_mod_cast hpos
  have hrq : (r : ℚ) ≤ 10 ^ 51 := by exact_mod_cast hr
  have hstart := cubic_start r hpos
  have habove : ∀ k, (r : ℚ) ≤ (cubicStep (Kind.cubic.dim r))^[k + 1] (floorRoot 3 (Kind.cubic.dim r)) := by
    intro k
    induction k with
    | zero => exact cubicStep_above r _ (Nat.cast_nonneg _)
    | succ k ih => rw [Function.iterate_succ_apply']; exact cubicStep_above r _ (hr0.le.trans ih)
  have hchain : ∀ k d d', 0 ≤ d → d ^ 2 ≤ d' * (1 + d) →
      (cubicStep (Kind.cubic.dim r))^[k + 1] (floorRoot 3 (Kind.cubic.dim r)) ≤ (1 + d) * r →
      (cubicStep (Kind.cubic.dim r))^[k + 2] (floorRoot 3 (Kind.cubic.dim r)) ≤ (1 + d') * r := by
    intro k d d' hd hdd hk
    rw [Function.iterate_succ_apply' _ (k + 1)]
    exact cubicStep_chain r _ d d' (habove k) hd hk hdd
  have c1 : (cubicStep (Kind.cubic.dim r))^[0 + 1] (floorRoot 3 (Kind.cubic.dim r)) ≤ (1 + 1) * r := by
    have : ((1 : ℚ) + 1) * r = 2 * r := by ring
    rw [this]; exact hstart
  have c2 := hchain 0 1 (1 / 2) (by norm_num) (by norm_num) c1
  have c3 := hchain 1 (1 / 2) (1 / 6) (by norm_num) (by norm_num) c2
  have c4 := hchain 2 (1 / 6) (1 / 42) (by norm_num) (by norm_num) c3
  have c5 := hchain 3 (1 / 42) (1 / 1806) (by norm_num) (by norm_num) c4
  have c6 := hchain 4 (1 / 1806) (1 / 3263442) (by norm_num) (by norm_num) c5
  have c7 := hchain 5 (1 / 3263442) (1 / 10 ^ 13) (by norm_num) (by norm_num) c6
  have c8 := hchain 6 (1 / 10 ^ 13) (1 / 10 ^ 26) (by norm_num) (by norm_num) c7
  have c9 := hchain 7 (1 / 10 ^ 26) (1 / 10 ^ 52) (by norm_num) (by norm_num) c8
  have hab := habove 8
  have hab' := habove 9
  have hle := cubicStep_le r _ hab
  rw [← Function.iterate_succ_apply' (cubicStep (Kind.cubic.dim r))] at hle
  rw [abs_of_nonneg (by linarith)] at h9
  have : (1 / 10 ^ 52 : ℚ) * r ≤ 1 / 10 := by
    calc (1 / 10 ^ 52 : ℚ) * r ≤ 1 / 10 ^ 52 * 10 ^ 51 := mul_le_mul_of_nonneg_left hrq (by positivity)
      _ = 1 / 10 := by norm_num
  linarith

/-- Ten steps suffice for the quartic equation. -/
theorem quartic_converges (r : Nat) (hr : r ≤ 10 ^ 10) :
    newtonLoop (1 / 4) (quarticStep (Kind.quartic.dim r)) 10 (floorRoot 4 (Kind.quartic.dim r)) ≠ none := by
  rcases Nat.eq_zero_or_pos r with rfl | hpos
  · decide +kernel
  intro h
  have h9 := (newtonLoop_none.1 h) 9 (by omega)
  have hr0 : (0 : ℚ) < r := by exact_mod_cast hpos
  have hrq : (r : ℚ) ≤ 10 ^ 10 := by exact_mod_cast hr
  have c1 := quartic_start r hpos
  have habove : ∀ k, (r : ℚ) ≤ (quarticStep (Kind.quartic.dim r))^[k + 1] (floorRoot 4 (Kind.quartic.dim r)) := by
    intro k
    induction k with
    | zero => exact quarticStep_above r _ (Nat.cast_nonneg _)
    | succ k ih => rw [Function.iterate_succ_apply']; exact quarticStep_above r _ (hr0.le.trans ih)
  have hchain : ∀ k c c', 3 * c ^ 4 + 1 ≤ 4 * c' * c ^ 3 →
      (quarticStep (Kind.quartic.dim r))^[k + 1] (floorRoot 4 (Kind.quartic.dim r)) ≤ c * r →
      (quarticStep (Kind.quartic.dim r))^[k + 2] (floorRoot 4 (Kind.quartic.dim r)) ≤ c' * r := by
    intro k c c' hcc hk
    rw [Function.iterate_succ_apply' _ (k + 1)]
    exact quarticStep_chain r _ c c' hpos (habove k) hk hcc
  have c2 := hchain 0 (16 / 5) (2408 / 1000) (by norm_num) c1
  have c3 := hchain 1 (2408 / 1000) (1825 / 1000) (by norm_num) c2
  have c4 := hchain 2 (1825 / 1000) (1411 / 1000) (by norm_num) c3
  have c5 := hchain 3 (1411 / 1000) (1148 / 1000) (by norm_num) c4
  have c6 := hchain 4 (1148 / 1000) (10264 / 10000) (by norm_num) c5
  have c7 := hchain 5 (10264 / 10000) (1 + 11 / 10000) (by norm_num) c6
  have c8 := hchain 6 (1 + 11 / 10000) (1 + 19 / 10 ^ 7) (by norm_num) c7
  have c9 := hchain 7 (1 + 19 / 10 ^ 7) (1 + 6 / 10 ^ 12) (by norm_num) c8
  have hab := habove 8
  have hab' := habove 9
  have hle := quarticStep_le r _ hab
  rw [← Function.iterate_succ_apply' (quarticStep (Kind.quartic.dim r))] at hle
  rw [abs_of_nonneg (by linarith)] at h9
  have : (6 / 10 ^ 12 : ℚ) * r ≤ 6 / 100 := by
    calc (6 / 10 ^ 12 : ℚ) * r ≤ 6 / 10 ^ 12 * 10 ^ 10 := mul_le_mul_of_nonneg_left hrq (by positivity)
      _ = 6 / 100 := by norm_num
  linarith

/-- **C104, the dimension found.** For quadratic operators, for cubic operators of dimension up to `10 ** 51`, and
for quartic operators of dimension up to `10 ** 10`, the state dimension is found from the number of columns of
the compressed matrix. -/
theorem C104_found (k : Kind) (r : Nat) (hr : k = .quad ∨ k = .cubic ∧ r ≤ 10 ^ 51 ∨ r ≤ 10 ^ 10) :
    k.dimOfColumns (k.dim r) = .ok r := by
  rcases dimOfColumns_cases k r with h | ⟨hk, h⟩
  · exact h
  · exfalso
    cases k with
    | quad => exact hk rfl
    | cubic =>
      have hr' : r ≤ 10 ^ 51 := by
        rcases hr with h | h | h
        · cases h
        · exact h.2
        · exact h.trans (by norm_num)
      have hc := cubic_converges r hr'
      rcases dimOfColumns_cases .cubic r with h2 | -
      · rw [h2] at h; cases h
      · cases hn : newtonLoop (1 / 4) (cubicStep (Kind.cubic.dim r)) 10 (floorRoot 3 (Kind.cubic.dim r)) with
        | none => exact hc hn
        | some y =>
          have hx : ((floorRoot 3 (Kind.cubic.dim r) : Nat) : ℚ) ≤ r := by exact_mod_cast cubic_start_le r
          have hy := newtonLoop_sound hx (cubicStep_above r _ (Nat.cast_nonneg _))
            (fun x hx => cubicStep_above r x ((Nat.cast_nonneg r).trans hx)) (cubicStep_near r) hn
          simp only [Kind.dimOfColumns, Kind.candidateDim, cubicDimOf, hn, hy] at h
          rw [if_pos ⟨by omega, by simp⟩] at h
          cases h
    | quartic =>
      have hr' : r ≤ 10 ^ 10 := by
        rcases hr with h | h | h
        · cases h
        · cases h.1
        · exact h
      have hc := quartic_converges r hr'
      cases hn : newtonLoop (1 / 4) (quarticStep (Kind.quartic.dim r)) 10 (floorRoot 4 (Kind.quartic.dim r)) with
      | none => exact hc hn
      | some y =>
        cases r with
        | zero => revert h; decide +kernel
        | succ r =>
        have hx : ((floorRoot 4 (Kind.quartic.dim (r + 1)) : Nat) : ℚ) ≤ (r + 1 : Nat) := by
          exact_mod_cast quartic_start_le (r + 1)
        have hy := newtonLoop_sound hx (quarticStep_above (r + 1) _ (Nat.cast_nonneg _))
          (fun x hx => quarticStep_above (r + 1) x ((Nat.cast_nonneg (r + 1)).trans hx))
          (quarticStep_near (r + 1) (by omega)) hn
        simp only [Kind.dimOfColumns, Kind.candidateDim, quarticDimOf, hn, hy] at h
        rw [if_pos ⟨by omega, by simp⟩] at h
        cases h

/-- **C104, nothing wrong accepted.** Whatever the number of columns: a dimension is returned only if it is the
one with that many columns, and every failure is a `ValueError`. -/
theorem C104_never_wrong (k : Kind) (b : Nat) :
    (∃ r, k.dimOfColumns b = .ok r ∧ b = k.dim r) ∨ k.dimOfColumns b = .error .value := by
  rw [Kind.dimOfColumns]
  cases hc : k.candidateDim b with
  | error e =>
    right
    cases k with
    | quad => cases hc
    | cubic =>
      simp only [Kind.candidateDim, cubicDimOf] at hc
      split at hc
      · cases hc
      · rw [← Except.error.inj hc]
    | quartic =>
      simp only [Kind.candidateDim, quarticDimOf] at hc
      split at hc
      · cases hc
      · rw [← Except.error.inj hc]
  | ok r =>
    simp only
    split
    · rename_i h
      exact Or.inl ⟨_, rfl, h.2.symm⟩
    · exact Or.inr rfl

/-- **C104, `compress_entries()`.** A matrix with `r ** p` columns is recognised as such for every `r`, every other
number of columns is refused with `ValueError`, and a one-dimensional argument is a matrix of one row. -/
theorem C104_compress [AddMonoid K] (k : Kind) (H : List K ⊕ Mat K) :
    (∀ r, (rowsOf H).ncols = r ^ k.deg → k.compressEntries H =
      .ok ⟨(rowsOf H).nrows, (r + k.deg - 1).choose k.deg, (rowsOf H).rows.map (k.compressRow r)⟩) ∧
    ((∀ r, (rowsOf H).ncols ≠ r ^ k.deg) → k.compressEntries H = .error .value) := by
  constructor
  · intro r hr
    rw [compress_code, Kind.compress, hr, exactRoot_pow (deg_pos k).ne', ← dim_eq_choose]
  · intro h
    rw [compress_code, Kind.compress]
    cases hx : exactRoot k.deg (rowsOf H).ncols with
    | none => rfl
    | some r => exact absurd (exactRoot_some hx).symm (h r)

/-- **C104, `expand_entries()`.** With a number of columns that belongs to a dimension in the range of `C104_found`,
and with one that belongs to no dimension, `expand_entries()` does what the search for the exact dimension would
do (`Kind.expand`, to which C01 and C02 refer). -/
theorem C104_expand [DivisionRing K] (junk : K) (k : Kind) (Hc : List K ⊕ Mat K)
    (h : ∀ r, (rowsOf Hc).ncols = k.dim r → k = .quad ∨ k = .cubic ∧ r ≤ 10 ^ 51 ∨ r ≤ 10 ^ 10) :
    k.expandEntries junk Hc = k.expand junk (rowsOf Hc) := by
  simp only [Kind.expandEntries, Kind.expand]
  cases hx : k.rOfDim (rowsOf Hc).ncols with
  | some r =>
    have hr := rOfDim_some hx
    rw [← hr, C104_found k r (h r hr.symm)]
    rfl
  | none =>
    rcases C104_never_wrong k (rowsOf Hc).ncols with ⟨r, -, h2⟩ | h1
    · rw [h2, rOfDim_dim] at hx
      cases hx
    · rw [h1]; rfl

/-- **C104, round trip.** Compressed entries that are expanded and compressed again are the same entries. -/
theorem C104_round_trip [Field K] [CharZero K] (k : Kind) (junk : K) (Hc : Mat K) (hw : Hc.WF) (r : Nat)
    (hr : Hc.ncols = k.dim r) (hrange : k = .quad ∨ k = .cubic ∧ r ≤ 10 ^ 51 ∨ r ≤ 10 ^ 10) :
    ∃ H : Mat K, k.expandEntries junk (.inr Hc) = .ok H ∧ H.WF ∧ H.nrows = Hc.nrows ∧ H.ncols = r ^ k.deg ∧
      k.compressEntries (.inr H) = .ok Hc := by
  obtain ⟨H, h1, h2, h3, h4, h5⟩ := C02_compress_expand k junk Hc hw r hr
  refine ⟨H, ?_, h2, h3, h4, ?_⟩
  · rw [C104_expand]
    · exact h1
    · intro r' hr'
      have : r' = r := (dim_strictMono k).injective (hr'.symm.trans hr)
      rw [this]; exact hrange
  · rw [compress_code]; exact h5

/-! ### the range is limited -/

theorem cubicStep_lower (r : Nat) (x c : ℚ) (hr : 1 ≤ r) (hx : (r : ℚ) ≤ x) (hx2 : x ≤ 2 * r) (hc : 0 ≤ c)
    (h : c * r ≤ x - r) : c ^ 2 / 4 * r ≤ cubicStep (Kind.cubic.dim r) x - r := by
  have hr0 : (1 : ℚ) ≤ r := by exact_mod_cast hr
  have hx0 : 0 ≤ x := by linarith
  have hD : 0 < 3 * x ^ 2 + 6 * x + 2 := by positivity
  rw [cubicStep_sub r x hx0, le_div_iff₀ hD]
  generalize (r : ℚ) = s at *
  have h1 : 3 * x ^ 2 + 6 * x + 2 ≤ 4 * s * (2 * x + s + 3) := by nlinarith
  have h2 : (c * s) ^ 2 ≤ (x - s) ^ 2 := pow_le_pow_left₀ (mul_nonneg hc (by linarith)) h 2
  calc c ^ 2 / 4 * s * (3 * x ^ 2 + 6 * x + 2) ≤ c ^ 2 / 4 * s * (4 * s * (2 * x + s + 3)) :=
        mul_le_mul_of_nonneg_left h1 (mul_nonneg (by positivity) (by linarith))
    _ = (c * s) ^ 2 * (2 * x + s + 3) := by ring
    _ ≤ (x - s) ^ 2 * (2 * x + s + 3) := mul_le_mul_of_nonneg_right h2 (by linarith)

theorem cubicStep_third (r : Nat) (x : ℚ) (hx : (r : ℚ) ≤ x) :
    (x - r) / 3 ≤ x - cubicStep (Kind.cubic.dim r) x := by
  have hr : (0 : ℚ) ≤ r := Nat.cast_nonneg r
  have hx0 : 0 ≤ x := hr.trans hx
  have hD : 0 < 3 * x ^ 2 + 6 * x + 2 := by positivity
  rw [sub_cubicStep r x hx0, le_div_iff₀ hD]
  have := mul_le_mul_of_nonneg_left (show (3 * x ^ 2 + 6 * x + 2) / 3 ≤
    x ^ 2 + x * r + r ^ 2 + 3 * x + 3 * r + 2 by nlinarith [mul_nonneg hx0 hr, sq_nonneg (r : ℚ)])
    (show 0 ≤ x - r by linarith)
  linarith

theorem cubic_start_lower (r : Nat) (hr : 11 ≤ r) :
    (floorRoot 3 (Kind.cubic.dim r) : ℚ) ≤ 3 / 5 * r ∧
      1 / 8 * (r : ℚ) ≤ cubicStep (Kind.cubic.dim r) (floorRoot 3 (Kind.cubic.dim r)) - r := by
  have h6 := six_dim r
  have h := floorRoot_le (p := 3) (n := Kind.cubic.dim r) (by decide)
  have hs := cubicStep_sub r (floorRoot 3 (Kind.cubic.dim r)) (Nat.cast_nonneg _)
  generalize floorRoot 3 (Kind.cubic.dim r) = x0 at *
  have hup : 6 * (x0 : ℚ) ^ 3 ≤ r * (r + 1) * (r + 2) := by
    have : 6 * x0 ^ 3 ≤ r * (r + 1) * (r + 2) := by omega
    exact_mod_cast this
  have hr0 : (11 : ℚ) ≤ r := by exact_mod_cast hr
  have hx0 : (0 : ℚ) ≤ x0 := Nat.cast_nonneg x0
  have hle : (x0 : ℚ) ≤ 3 / 5 * r := by
    by_contra hc
    rw [not_le] at hc
    have h3 : (3 / 5 * (r : ℚ)) ^ 3 ≤ (x0 : ℚ) ^ 3 := pow_le_pow_left₀ (by positivity) hc.le 3
    generalize (r : ℚ) = s at *
    have h4 : 11 * s ^ 2 ≤ s ^ 3 := by nlinarith [sq_nonneg s]
    have h5 : 11 * s ≤ s ^ 2 := by nlinarith
    nlinarith
  refine ⟨hle, ?_⟩
  have hD : (0 : ℚ) < 3 * (x0 : ℚ) ^ 2 + 6 * x0 + 2 := by positivity
  rw [hs, le_div_iff₀ hD]
  generalize (x0 : ℚ) = x at *
  generalize (r : ℚ) = s at *
  have h1 : (2 / 5 * s) ^ 2 ≤ (x - s) ^ 2 := by nlinarith
  have h2 : (2 / 5 * s) ^ 2 * (s + 3) ≤ (x - s) ^ 2 * (2 * x + s + 3) :=
    mul_le_mul h1 (by linarith) (by linarith) (sq_nonneg _)
  have h3 : x ^ 2 ≤ (3 / 5 * s) ^ 2 := pow_le_pow_left₀ hx0 hle 2
  have h4 : 1 / 8 * s * (3 * x ^ 2 + 6 * x + 2) ≤ 1 / 8 * s * (3 * (3 / 5 * s) ^ 2 + 6 * (3 / 5 * s) + 2) :=
    mul_le_mul_of_nonneg_left (by linarith) (by linarith)
  nlinarith

/-- **C104, the limit.** Ten steps do not suffice for every dimension: for all `r >= 2 ** 1280` the compressed
matrix of a cubic operator (which has more columns than any computer can store) would be refused. -/
theorem C104_limit (r : Nat) (hr : 2 ^ 1280 ≤ r) : Kind.cubic.dimOfColumns (Kind.cubic.dim r) = .error .value := by
  have hr11 : 11 ≤ r := le_trans (le_trans (by norm_num) (Nat.pow_le_pow_right (by norm_num : 0 < 2)
    (by norm_num : 4 ≤ 1280))) hr
  have hlarge : ∀ k ≤ 8, (4 : ℚ) ≤ 4 / 2 ^ (5 * 2 ^ k) * r := by
    intro k hk
    have hp : 2 ^ (5 * 2 ^ k) ≤ r := by
      refine le_trans (Nat.pow_le_pow_right (by norm_num) ?_) hr
      calc 5 * 2 ^ k ≤ 5 * 2 ^ 8 := Nat.mul_le_mul_left 5 (Nat.pow_le_pow_right (by norm_num) hk)
        _ = 1280 := by norm_num
    have hq : (2 : ℚ) ^ (5 * 2 ^ k) ≤ r := by exact_mod_cast hp
    have hp0 : (0 : ℚ) < 2 ^ (5 * 2 ^ k) := by positivity
    rw [div_mul_eq_mul_div, le_div_iff₀ hp0]
    exact mul_le_mul_of_nonneg_left hq (by norm_num)
  clear hr
  have hr0 : (11 : ℚ) ≤ r := by exact_mod_cast hr11
  obtain ⟨s1, s2⟩ := cubic_start_lower r hr11
  have hst := cubic_start r (by omega)
  have hb : ∀ k, (r : ℚ) ≤ (cubicStep (Kind.cubic.dim r))^[k + 1] (floorRoot 3 (Kind.cubic.dim r)) ∧
      (cubicStep (Kind.cubic.dim r))^[k + 1] (floorRoot 3 (Kind.cubic.dim r)) ≤ 2 * r ∧
      4 / 2 ^ (5 * 2 ^ k) * (r : ℚ) ≤ (cubicStep (Kind.cubic.dim r))^[k + 1] (floorRoot 3 (Kind.cubic.dim r)) - r := by
    intro k
    induction k with
    | zero =>
      refine ⟨cubicStep_above r _ (Nat.cast_nonneg _), hst, ?_⟩
      have : (4 / 2 ^ (5 * 2 ^ 0) : ℚ) = 1 / 8 := by norm_num
      rw [this]; exact s2
    | succ k ih =>
      obtain ⟨i1, i2, i3⟩ := ih
      rw [Function.iterate_succ_apply']
      refine ⟨cubicStep_above r _ (by linarith), (cubicStep_le r _ i1).trans i2, ?_⟩
      have := cubicStep_lower r _ (4 / 2 ^ (5 * 2 ^ k)) (by omega) i1 i2 (by positivity) i3
      have he : ((4 : ℚ) / 2 ^ (5 * 2 ^ k)) ^ 2 / 4 = 4 / 2 ^ (5 * 2 ^ (k + 1)) := by
        have : 5 * 2 ^ (k + 1) = 5 * 2 ^ k + 5 * 2 ^ k := by ring
        rw [this, pow_add]
        field_simp
      rw [← he]; exact this
  have hn : newtonLoop (1 / 4) (cubicStep (Kind.cubic.dim r)) 10 (floorRoot 3 (Kind.cubic.dim r)) = none := by
    rw [newtonLoop_none]
    intro k hk
    cases k with
    | zero =>
      have := (hb 0).1
      simp only [Function.iterate_zero, id, zero_add, Function.iterate_one] at this ⊢
      rw [abs_sub_comm]
      exact le_trans (by linarith) (le_abs_self _)
    | succ k =>
      obtain ⟨i1, i2, i3⟩ := hb k
      have h3 := cubicStep_third r _ i1
      rw [Function.iterate_succ_apply' _ (k + 1)]
      refine le_trans ?_ (le_abs_self _)
      have h4 := hlarge k (by omega)
      linarith
  simp only [Kind.dimOfColumns, Kind.candidateDim, cubicDimOf, hn]

/-! ### examples -/

-- the iterates for a cubic operator of dimension 4: 20 columns
example : floorRoot 3 20 = 2 ∧ cubicStep 20 2 = 74 / 13 ∧ Kind.cubic.dimOfColumns 20 = .ok 4 ∧
    Kind.cubic.dimOfColumns 21 = .error .value ∧ Kind.quartic.dimOfColumns 35 = .ok 4 ∧
    Kind.quartic.dimOfColumns 36 = .error .value ∧ Kind.quad.dimOfColumns 10 = .ok 4 ∧
    Kind.quad.dimOfColumns 11 = .error .value := by decide +kernel

example : nearestRoot 2 8 = 3 ∧ nearestRoot 3 27 = 3 ∧ nearestRoot 3 26 = 3 ∧ nearestRoot 2 6 = 2 := by decide +kernel

example : Kind.quad.expandEntries (0 : ℚ) (.inl [1, 4, 3]) = .ok ⟨1, 4, [[1, 2, 2, 3]]⟩ ∧
    Kind.quad.compressEntries (K := ℚ) (.inl [1, 2, 2, 3]) = .ok ⟨1, 3, [[1, 4, 3]]⟩ ∧
    Kind.quad.compressEntries (K := ℚ) (.inl [1, 2, 2]) = .error .value := by decide +kernel

end Opinf
