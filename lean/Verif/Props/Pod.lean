import Verif.Lemmas.Pod
import Verif.Props.Basis

/-!
# C43: POD dimension criteria

`captured vals r` is the part of the energy in the first `r` singular values. The criteria of a `PODBasis` choose
among the dimensions `1, …, k`; the functions `cumulative_energy()` and `residual_energy()` among `0, …, k`.

The criteria `residual_energy` and `projection_error` of the class do not choose the smallest dimension whose
residual is *at most* the threshold, but the smallest one whose residual is *below* it: `C43_residual_tie_witness`.
-/

namespace Opinf

open List

variable {K : Type} [Field K] [LinearOrder K]

/-- The relative energy of the first `r` singular values. -/
def captured (vals : List K) (r : Nat) : K := ((vals.take r).map fun s => s * s).sum / (vals.map fun s => s * s).sum

theorem captured_eq (vals : List K) (r : Nat) : captured vals r = energySum (vals.take r) / energySum vals := by
  simp only [captured, energySum, pow_two]

theorem energies_captured (vals : List K) (i : Nat) (h : i < (energies vals).length) :
    (energies vals)[i] = captured vals (i + 1) := by
  rw [getElem_energies, captured_eq]

variable [IsStrictOrderedRing K]

theorem captured_mono (vals : List K) {i j : Nat} (h : i ≤ j) : captured vals i ≤ captured vals j := by
  rw [captured_eq, captured_eq]
  exact div_le_div_of_nonneg_right (energySum_take_mono vals h) (energySum_nonneg vals)

theorem captured_all (vals : List K) (h : energySum vals ≠ 0) (r : Nat) (hr : vals.length ≤ r) :
    captured vals r = 1 := by
  rw [captured_eq, take_of_length_le hr, div_self h]

omit [IsStrictOrderedRing K] in
theorem captured_zero (vals : List K) : captured vals 0 = 0 := by simp [captured]

/-- The residual decreases from 1 to 0. -/
theorem C43_residual_monotone (vals : List K) (h : energySum vals ≠ 0) :
    1 - captured vals 0 = 1 ∧ 1 - captured vals vals.length = 0 ∧
      ∀ i j, i ≤ j → 1 - captured vals j ≤ 1 - captured vals i := by
  refine ⟨by rw [captured_zero, sub_zero], by rw [captured_all vals h _ le_rfl, sub_self], ?_⟩
  intro i j hij
  have := captured_mono vals hij
  linarith

/-- Along the energies, an upward closed predicate is first met at the count of those that fail it. -/
theorem energy_count (vals : List K) (p : K → Bool)
    (hp : ∀ x y, x ≤ y → p y = true → p x = true) (r : Nat) (h1 : 1 ≤ r) (hr : r ≤ vals.length) :
    p (captured vals r) = true ↔ r < countIf p (energies vals) + 1 := by
  have hl : r - 1 < (energies vals).length := by rw [length_energies]; omega
  have := countIf_prefix p (energies vals) (fun i j hi hj hpj => by
    rw [energies_captured] at hpj ⊢
    exact hp _ _ (captured_mono vals (by omega)) hpj) (r - 1) hl
  rw [energies_captured, Nat.sub_add_cancel h1] at this
  rw [this]
  omega

/-- The least dimension for a predicate, given by a count. -/
theorem energy_least (vals : List K) (p : K → Bool) (q : K → Prop) (hpq : ∀ x, q x ↔ ¬ p x = true)
    (hp : ∀ x y, x ≤ y → p y = true → p x = true) :
    (∀ r, 1 ≤ r → r ≤ vals.length → q (captured vals r) →
      IsLeast {r | 1 ≤ r ∧ r ≤ vals.length ∧ q (captured vals r)} (countIf p (energies vals) + 1)) ∧
    ((∀ r, 1 ≤ r → r ≤ vals.length → ¬ q (captured vals r)) → countIf p (energies vals) + 1 = vals.length + 1) := by
  have key := energy_count vals p hp
  constructor
  · intro r h1 hr hq
    have hlt : countIf p (energies vals) + 1 ≤ r := by
      by_contra hc
      exact (hpq _).1 hq ((key r h1 hr).2 (by omega))
    refine ⟨⟨by omega, by omega, ?_⟩, ?_⟩
    · rw [hpq, key _ (by omega) (by omega)]
      omega
    · rintro r' ⟨h1', hr', hq'⟩
      by_contra hc
      exact (hpq _).1 hq' ((key r' h1' hr').2 (by omega))
  · intro hnone
    have hle := countIf_le p (energies vals)
    rw [length_energies] at hle
    by_contra hc
    have h := key (countIf p (energies vals) + 1) (by omega) (by omega)
    have := hnone (countIf p (energies vals) + 1) (by omega) (by omega)
    rw [hpq, h] at this
    omega

/-- C43: `cumulative_energy=v` chooses the smallest dimension that captures at least `v`; if `v > 1` no dimension
does and one more than the number of singular values is requested. -/
theorem C43_cumulative (sqrt : K → K) (vals : List K) (hv : energySum vals ≠ 0) (v : K) :
    ∃ m : Nat, (Crit.cumE v).dim sqrt vals = m ∧
      (v ≤ 1 → vals ≠ [] → IsLeast {r | 1 ≤ r ∧ r ≤ vals.length ∧ v ≤ captured vals r} m) ∧
      (1 < v → m = vals.length + 1) := by
  have key := energy_least vals (fun x => decide (x < v)) (fun x => v ≤ x) (by simp)
    (fun x y hxy => by simp only [decide_eq_true_eq]; exact lt_of_le_of_lt hxy)
  refine ⟨searchSorted (energies vals) v + 1, by simp [Crit.dim], ?_, ?_⟩
  · intro h1 hne
    rw [searchSorted_eq]
    have hpos : 0 < vals.length := length_pos_iff.2 hne
    exact key.1 vals.length hpos le_rfl (by rw [captured_all vals hv _ le_rfl]; exact h1)
  · intro h1
    rw [searchSorted_eq]
    apply key.2
    intro r _ hr hq
    have : captured vals r ≤ 1 := by
      rw [← captured_all vals hv _ le_rfl]
      exact captured_mono vals hr
    linarith

/-- C43 (the part that holds): `residual_energy=v` chooses the smallest dimension whose residual is *below* `v`. If
`v ≤ 0` there is none and one more than the number of singular values is requested. -/
theorem C43_residual_partial (sqrt : K → K) (vals : List K) (hv : energySum vals ≠ 0) (v : K) :
    ∃ m : Nat, (Crit.resE v).dim sqrt vals = m ∧
      (0 < v → vals ≠ [] → IsLeast {r | 1 ≤ r ∧ r ≤ vals.length ∧ 1 - captured vals r < v} m) ∧
      (v ≤ 0 → m = vals.length + 1) := by
  have key := energy_least vals (fun x => decide (v ≤ 1 - x)) (fun x => 1 - x < v) (by simp)
    (fun x y hxy => by simp only [decide_eq_true_eq]; intro h; linarith)
  refine ⟨_, by simp [Crit.dim]; rfl, ?_, ?_⟩
  · intro h0 hne
    have hpos : 0 < vals.length := length_pos_iff.2 hne
    exact key.1 vals.length hpos le_rfl (by rw [captured_all vals hv _ le_rfl, sub_self]; exact h0)
  · intro h0
    apply key.2
    intro r _ hr hq
    have : captured vals r ≤ 1 := by
      rw [← captured_all vals hv _ le_rfl]
      exact captured_mono vals hr
    linarith

/-- C43: away from ties, `residual_energy=v` chooses the smallest dimension whose residual is at most `v`. -/
theorem C43_residual_no_tie (sqrt : K → K) (vals : List K) (hv : energySum vals ≠ 0) (hne : vals ≠ []) (v : K)
    (h0 : 0 < v) (ht : ∀ r, 1 ≤ r → r ≤ vals.length → 1 - captured vals r ≠ v) :
    ∃ m : Nat, (Crit.resE v).dim sqrt vals = m ∧
      IsLeast {r | 1 ≤ r ∧ r ≤ vals.length ∧ 1 - captured vals r ≤ v} m := by
  obtain ⟨m, h1, h2, _⟩ := C43_residual_partial sqrt vals hv v
  refine ⟨m, h1, ?_⟩
  have : {r | 1 ≤ r ∧ r ≤ vals.length ∧ 1 - captured vals r ≤ v} =
      {r | 1 ≤ r ∧ r ≤ vals.length ∧ 1 - captured vals r < v} := by
    ext r
    constructor
    · rintro ⟨a, b, c⟩
      exact ⟨a, b, lt_of_le_of_ne c (ht r a b)⟩
    · rintro ⟨a, b, c⟩
      exact ⟨a, b, le_of_lt c⟩
  rw [this]
  exact h2 h0 hne

/-- C43: `projection_error=v` is `residual_energy=v²`, for a square root on the nonnegative numbers and `v ≥ 0`. -/
theorem C43_projection_error (sqrt : K → K) (hs : ∀ x, 0 ≤ x → 0 ≤ sqrt x ∧ sqrt x * sqrt x = x) (vals : List K)
    (hv : energySum vals ≠ 0) (v : K) (h0 : 0 ≤ v) :
    (Crit.projErr v).dim sqrt vals = (Crit.resE (v * v)).dim sqrt vals := by
  simp only [Crit.dim, countIf]
  congr 3
  apply filter_congr
  intro e he
  obtain ⟨i, hi, rfl⟩ := mem_iff_getElem.1 he
  rw [energies_captured]
  have hle : captured vals (i + 1) ≤ 1 := by
    rw [← captured_all vals hv (max vals.length (i + 1)) (le_max_left _ _)]
    exact captured_mono vals (le_max_right _ _)
  obtain ⟨s0, s1⟩ := hs (1 - captured vals (i + 1)) (by linarith)
  rw [decide_eq_decide]
  constructor
  · intro h
    rw [← s1]
    exact mul_self_le_mul_self h0 h
  · intro h
    rw [← s1] at h
    by_contra hc
    exact absurd h (not_le.2 (mul_self_lt_mul_self s0 (not_le.1 hc)))

/-- C43: `svdval_threshold=v` keeps exactly the singular values that are at least `v`. -/
theorem C43_svdval_threshold (sqrt : K → K) (vals : List K) (hs : vals.Pairwise (· ≥ ·)) (v : K) :
    ∃ m : Nat, (Crit.svdval v).dim sqrt vals = m ∧ m ≤ vals.length ∧ (∀ s ∈ vals.take m, v ≤ s) ∧
      ∀ s ∈ vals.drop m, s < v := by
  have key := countIf_prefix (fun s => decide (v ≤ s)) vals (fun i j hi hj h => by
    simp only [decide_eq_true_eq] at h ⊢
    exact le_trans h (pairwise_iff_getElem.1 hs i j _ hj hi))
  simp only [decide_eq_true_eq] at key
  refine ⟨_, rfl, countIf_le _ _, ?_, ?_⟩
  · intro s h
    obtain ⟨i, hi, rfl⟩ := mem_iff_getElem.1 h
    rw [getElem_take]
    rw [length_take] at hi
    exact (key i (by omega)).2 (by omega)
  · intro s h
    obtain ⟨i, hi, rfl⟩ := mem_iff_getElem.1 h
    rw [getElem_drop]
    rw [length_drop] at hi
    by_contra hc
    have := (key _ (by omega)).1 (not_lt.1 hc)
    omega

/-! ### The functions -/

omit [IsStrictOrderedRing K] in
/-- The list of residuals or energies of the dimensions `0, …, k`. -/
theorem zero_energies_get (vals : List K) (r : Nat) (h : r < (0 :: energies vals).length) :
    (0 :: energies vals)[r] = captured vals r := by
  cases r with
  | zero => simp [captured_zero]
  | succ r => simp [energies_captured]

/-- C43: `cumulative_energy(svdvals, v)` is the smallest number of singular values that capture at least `v`. -/
theorem C43_cumulative_function (vals : List K) (v : K) (h1 : v ≤ 1)
    (hv : energySum (vals.insertionSort (· ≥ ·)) ≠ 0) :
    ∃ m, cumulativeEnergyRank vals v = .ok m ∧ IsLeast {r | v ≤ captured (vals.insertionSort (· ≥ ·)) r} m := by
  set w := vals.insertionSort (· ≥ ·) with hw
  have key := countIf_prefix (fun x => decide (x < v)) (0 :: energies w) (fun i j hi hj h => by
    rw [zero_energies_get] at h ⊢
    simp only [decide_eq_true_eq] at h ⊢
    exact lt_of_le_of_lt (captured_mono w (le_of_lt hi)) h)
  have hlen : (0 :: energies w).length = w.length + 1 := by simp [length_energies]
  simp only [zero_energies_get, decide_eq_true_eq] at key
  have hm : ¬ w.length < countIf (fun x => decide (x < v)) (0 :: energies w) := by
    rw [← key w.length (by omega), captured_all w hv _ le_rfl]
    exact not_lt.2 h1
  refine ⟨countIf (fun x => decide (x < v)) (0 :: energies w), by simp only [cumulativeEnergyRank, ← hw, if_neg hv, searchSorted_eq], ?_, ?_⟩
  · show v ≤ _
    by_contra hc
    have := (key _ (by omega)).1 (not_le.1 hc)
    omega
  · intro r hr
    by_contra hc
    have := (key r (by omega)).2 (by omega)
    exact absurd hr (not_le.2 this)

/-- C43: `residual_energy(svdvals, v)` is the smallest number of singular values whose residual is at most `v`. -/
theorem C43_residual_function (vals : List K) (v : K) (h0 : 0 ≤ v)
    (hv : energySum (vals.insertionSort (· ≥ ·)) ≠ 0) :
    ∃ m, residualEnergyRank vals v none = .ok m ∧
      IsLeast {r | 1 - captured (vals.insertionSort (· ≥ ·)) r ≤ v} m := by
  set w := vals.insertionSort (· ≥ ·) with hw
  have hget : ∀ r, (h : r < (1 :: (energies w).map (1 - ·)).length) →
      (1 :: (energies w).map (1 - ·))[r] = 1 - captured w r := by
    intro r h
    cases r with
    | zero => simp [captured_zero]
    | succ r => simp [energies_captured]
  have key := countIf_prefix (fun x => decide (v < x)) (1 :: (energies w).map (1 - ·)) (fun i j hi hj h => by
    rw [hget] at h ⊢
    simp only [decide_eq_true_eq] at h ⊢
    have := captured_mono w (le_of_lt hi)
    linarith)
  have hlen : (1 :: (energies w).map (1 - ·)).length = w.length + 1 := by simp [length_energies]
  simp only [hget, decide_eq_true_eq] at key
  have hm : ¬ w.length < countIf (fun x => decide (v < x)) (1 :: (energies w).map (1 - ·)) := by
    rw [← key w.length (by omega), captured_all w hv _ le_rfl, sub_self]
    exact not_lt.2 h0
  refine ⟨countIf (fun x => decide (v < x)) (1 :: (energies w).map (1 - ·)), by simp only [residualEnergyRank, ← hw, if_neg hv], ?_, ?_⟩
  · show _ ≤ v
    by_contra hc
    have := (key _ (by omega)).1 (not_le.1 hc)
    omega
  · intro r hr
    by_contra hc
    have := (key r (by omega)).2 (by omega)
    exact absurd hr (not_le.2 this)

/-- C43: `svdval_decay(svdvals, v)` counts the normalized singular values strictly above `v`. -/
theorem C43_svdval_function (vals w : List K) (h : normalizeVals vals = .ok w) (v : K) :
    svdvalDecay vals v = .ok (w.filter fun s => v < s).length := by
  simp [svdvalDecay, h, bind, Except.bind, countIf, pure, Except.pure]

/-! ### From the criterion to the basis -/

omit [IsStrictOrderedRing K] in
/-- C43: on a basis with singular vectors, `set_dimension` sets the reduced dimension to what the criterion selects,
but at most to the number of stored vectors. -/
theorem C43_set_dimension (sqrt : K → K) (s : Pod K) (d : SvdData K) (hd : s.svd = some d) (a : CritArgs K)
    (c : Crit K) (ha : a.pick = .ok c) (m : Nat) (hm : c.dim sqrt d.vals = m) :
    (s.setDimension sqrt a).1.crit = c ∧
    (s.setDimension sqrt a).1.lin.r = some ((min m d.left.cols.length : Nat) : Int) := by
  have hmin : (if (d.left.cols.length : Int) < (m : Int) then (d.left.cols.length : Int) else (m : Int)) =
      ((min m d.left.cols.length : Nat) : Int) := by
    split <;> omega
  simp only [Pod.setDimension, ha, hd, Option.isNone_some, Bool.false_eq_true, if_false, Pod.setFromCrit, Pod.setR,
    hm, hmin, LinB.init, Cols.upTo]
  refine ⟨trivial, ?_⟩
  have h0 : ¬ (((min m d.left.cols.length : Nat) : Int) < 0) := by omega
  simp only [takeInt, if_neg h0, length_take]
  congr 2
  omega

/-- C43, the negation: with two equal singular values the residual of one vector is exactly one half, but
`residual_energy=1/2` chooses two vectors, although the function `residual_energy` says that one suffices. A second
vector with no energy at all is also kept for `residual_energy=0`. -/
theorem C43_residual_tie_witness :
    (Crit.resE (1/2)).dim (K := ℚ) id [1, 1] = 2 ∧ 1 - captured ([1, 1] : List ℚ) 1 ≤ 1/2 ∧
    residualEnergyRank ([1, 1] : List ℚ) (1/2) none = .ok 1 ∧
    (Crit.resE 0).dim (K := ℚ) id [1, 0] = 3 ∧ 1 - captured ([1, 0] : List ℚ) 1 ≤ 0 := by
  refine ⟨by decide +kernel, ?_, by decide +kernel, by decide +kernel, ?_⟩ <;> norm_num [captured]

/-- C43, the negation of the claim as stated. -/
theorem C43_residual_not_least :
    ¬ ∀ (vals : List ℚ) (v : ℚ), energySum vals ≠ 0 → vals ≠ [] → 0 < v →
      ∃ m : Nat, (Crit.resE v).dim id vals = m ∧
        IsLeast {r | 1 ≤ r ∧ r ≤ vals.length ∧ 1 - captured vals r ≤ v} m := by
  intro h
  obtain ⟨m, h1, h2⟩ := h [1, 1] (1/2) (by norm_num [energySum]) (by simp) (by norm_num)
  rw [C43_residual_tie_witness.1] at h1
  have hle := h2.2 (show 1 ∈ _ from ⟨le_rfl, by simp, C43_residual_tie_witness.2.1⟩)
  omega

/-! ### Examples -/

example : energySum ([1, 1/2, 1/4] : List ℚ) ≠ 0 ∧ ([1, 1/2, 1/4] : List ℚ).Pairwise (· ≥ ·) ∧
    (Crit.cumE (9/10)).dim (K := ℚ) id [1, 1/2, 1/4] = 2 ∧ (Crit.resE (1/10)).dim (K := ℚ) id [1, 1/2, 1/4] = 2 ∧
    (Crit.svdval (1/2)).dim (K := ℚ) id [1, 1/2, 1/4] = 2 ∧
    cumulativeEnergyRank ([1, 2, 4] : List ℚ) (9/10) = .ok 2 ∧
    residualEnergyRank ([1, 2, 4] : List ℚ) (1/10) none = .ok 2 ∧
    svdvalDecay ([1, 2, 4] : List ℚ) (1/2) = .ok 1 := by
  refine ⟨by norm_num [energySum], by norm_num, ?_⟩
  decide +kernel

end Opinf
