import Verif.Lemmas.Snapshots
import Verif.Props.PodOptimal

/-!
# C75: the method of snapshots computes singular vectors, but never the last ones

The eigenvalue decomposition and the square roots are taken on trust (`SnapLibs`). Eigenvalues are those of the
Gramian `Qᵀ W Q / k` of the `k` snapshots.
-/

namespace Opinf

open List

variable {K : Type} [Field K] [LinearOrder K] [IsStrictOrderedRing K]

/-- `eigh` is correct for `k × k` matrices whenever it succeeds, and `sqrt` for the numbers that occur. -/
structure SnapLibs (k : Nat) (eigh : List (List K) → Except Err (List K × Cols K)) (sqrt : K → K) : Prop where
  eigen : ∀ G evals evecs, eigh G = .ok (evals, evecs) → IsEigh k G evals evecs
  roots : ∀ G evals evecs, eigh G = .ok (evals, evecs) → ∀ a ∈ evals, 0 < a →
    0 < sqrt (a * (k : K)) ∧ sqrt (a * (k : K)) * sqrt (a * (k : K)) = a * (k : K)

/-- The least element of a list. -/
def IsLeast' (a : K) (l : List K) : Prop := a ∈ l ∧ ∀ b ∈ l, a ≤ b

omit [Field K] [IsStrictOrderedRing K] in
theorem foldl_min_least (l : List K) (a : K) : IsLeast' (l.foldl min a) (a :: l) := by
  induction l generalizing a with
  | nil => exact ⟨by simp, by simp⟩
  | cons b l ih =>
    obtain ⟨h1, h2⟩ := ih (min a b)
    rw [foldl_cons]
    refine ⟨?_, ?_⟩
    · rcases mem_cons.mp h1 with h | h
      · rw [h]
        rcases min_choice a b with e | e <;> rw [e] <;> simp
      · simp [h]
    · have h3 := h2 (min a b) (by simp)
      intro c hc
      rcases mem_cons.mp hc with rfl | hc
      · exact le_trans h3 (min_le_left _ _)
      · rcases mem_cons.mp hc with rfl | hc
        · exact le_trans h3 (min_le_right _ _)
        · exact h2 c (by simp [hc])

omit [IsStrictOrderedRing K] in
/-- The threshold is the absolute value of the least eigenvalue, or `minthresh` if that is larger. -/
theorem snapThreshold_least (mt a : K) (l : List K) (h : IsLeast' a l) : snapThreshold mt l = .ok (max mt |a|) := by
  cases l with
  | nil => exact absurd h.1 (by simp)
  | cons b l =>
    have hm := foldl_min_least l b
    have : l.foldl min b = a := le_antisymm (hm.2 a h.1) (h.2 _ hm.1)
    simp only [snapThreshold, this]

/-- Everything about a successful call. -/
theorem snapshots_inv {n k : Nat} {rows : List (List K)} (hY : (Snap.mat k rows).Shaped n (some k))
    {W : Option (Weights K)} (hW : weightsFit W n) (hp : WeightsPSD W n)
    (eigh : List (List K) → Except Err (List K × Cols K)) (sqrt : K → K) (hlib : SnapLibs k eigh sqrt) (mt : K)
    (L : Cols K) (s : List K) (R : Cols K) (h : methodOfSnapshots eigh sqrt mt W (.mat k rows) = .ok (L, s, R)) :
    ∃ G evals evecs a m, snapGram W k rows = .ok G ∧ eigh G = .ok (evals, evecs) ∧ IsLeast' a evals ∧ m ≤ k ∧ 0 < k ∧
      zip (evals.reverse.take m) (evecs.cols.reverse.take m) =
        (zip evals.reverse evecs.cols.reverse).filter (fun p => max mt |a| < p.1) ∧
      evals.reverse.take m = evals.reverse.filter (fun b => max mt |a| < b) ∧
      s = (evals.reverse.take m).map (fun b => sqrt (b * (k : K))) ∧ L.n = n ∧ R = ⟨k, evecs.cols.reverse.take m⟩ ∧
      L.cols = ((zip evals.reverse evecs.cols.reverse).take m).map (fun p => matVec rows (p.2.map (· / sqrt (p.1 * (k : K))))) ∧
      PodCore W n (columnsOf (.mat k rows)) L.cols s (evals.reverse.map (· * (k : K))) evecs.cols.reverse ∧
      (∀ b ∈ s, 0 < b) ∧ s.length = m := by
  simp only [methodOfSnapshots, bind, Except.bind] at h
  cases hG : snapGram W k rows with
  | error e => simp [hG] at h
  | ok G =>
    simp only [hG] at h
    cases hE : eigh G with
    | error e => simp [hE] at h
    | ok e =>
      obtain ⟨evals, evecs⟩ := e
      have he := hlib.eigen G evals evecs hE
      simp only [hE, snapKept, bind, Except.bind] at h
      cases hr : evals.reverse with
      | nil => simp [hr, snapThreshold] at h
      | cons b l =>
        have hleast := foldl_min_least l b
        rw [← hr] at hleast
        set a := l.foldl min b with ha
        have hth : snapThreshold mt evals.reverse = .ok (max mt |a|) := snapThreshold_least mt a _ hleast
        simp only [hth, pure, Except.pure, Except.ok.injEq, Prod.mk.injEq] at h
        obtain ⟨h1, h2, h3⟩ := h
        set thr := max mt |a| with hthr
        have hthr0 : 0 ≤ thr := le_trans (abs_nonneg a) (le_max_right _ _)
        have hlE : evals.reverse.length = k := by simp [he.len]
        have hlV : evecs.cols.reverse.length = k := by simp [he.num]
        have hk : 0 < k := by rw [← hlE, hr]; simp
        have hdesc : (zip evals.reverse evecs.cols.reverse).Pairwise fun x y => x.1 ≥ y.1 := by
          have : evals.reverse.Pairwise (· ≥ ·) := by
            rw [pairwise_reverse]
            exact he.asc
          rw [pairwise_iff_getElem] at this ⊢
          intro i j hi hj hij
          simp only [getElem_zip]
          exact this i j _ _ hij
        have hfd := filter_desc thr _ hdesc
        set m := ((zip evals.reverse evecs.cols.reverse).filter fun p => thr < p.1).length with hm
        have hmk : m ≤ k := by
          rw [hm]
          refine le_trans (length_filter_le _ _) ?_
          simp [he.len, he.num]
        have hfst : (zip evals.reverse evecs.cols.reverse).map Prod.fst = evals.reverse := by
          rw [map_fst_zip]
          omega
        have hsnd : (zip evals.reverse evecs.cols.reverse).map Prod.snd = evecs.cols.reverse := by
          rw [map_snd_zip]
          omega
        have htake : evals.reverse.take m = evals.reverse.filter (fun b => thr < b) := by
          conv_lhs => rw [← hfst]
          rw [← map_take, ← hfd]
          conv_rhs => rw [← hfst]
          rw [filter_map]
          rfl
        have hpos : ∀ i, i < m → thr < evals.reverse.getD i 0 := by
          intro i hi
          have hi2 : i < (evals.reverse.take m).length := by rw [length_take, hlE]; omega
          have hmem : ∀ x ∈ evals.reverse.take m, thr < x := by
            intro x hx
            rw [htake, mem_filter] at hx
            simpa using hx.2
          have := hmem _ (getElem_mem hi2)
          rw [getElem_take] at this
          rw [getD_eq_getElem evals.reverse _ (by omega)]
          exact this
        have hroot : ∀ i, i < m → 0 < sqrt (evals.reverse.getD i 0 * (k : K)) ∧
            sqrt (evals.reverse.getD i 0 * (k : K)) * sqrt (evals.reverse.getD i 0 * (k : K)) =
              evals.reverse.getD i 0 * (k : K) := by
          intro i hi
          refine hlib.roots G evals evecs hE _ ?_ (lt_of_le_of_lt hthr0 (hpos i hi))
          rw [getD_eq_getElem evals.reverse _ (by omega)]
          exact mem_reverse.mp (getElem_mem _)
        have hcore := podCore_snapshots hY hW hp G hG evals evecs he sqrt m hmk
          fun i hi => ⟨(hroot i hi).1.ne', (hroot i hi).2⟩
        rw [hfd] at h1 h2 h3
        have hs : s = (evals.reverse.take m).map (fun b => sqrt (b * (k : K))) := by
          rw [← h2]
          conv_rhs => rw [← hfst]
          rw [← map_take, map_map]
          rfl
        have hlen : rows.length = n := hY.len
        refine ⟨G, evals, evecs, a, m, rfl, hE, ?_, hmk, hk, ?_, htake, hs, by rw [← h1]; exact hlen, ?_, ?_, ?_, ?_, ?_⟩
        · exact ⟨mem_reverse.mp hleast.1, fun b hb => hleast.2 b (mem_reverse.mpr hb)⟩
        · rw [hfd]
          simp only [zip, take_zipWith]
        · rw [← h3]
          congr 1
          conv_rhs => rw [← hsnd]
          rw [← map_take]
        · rw [← h1]
        · rw [← h1, ← h2]
          exact hcore
        · intro b hb
          rw [hs, mem_iff_getElem] at hb
          obtain ⟨i, hi, rfl⟩ := hb
          have hi' : i < m := by
            rw [length_map, length_take] at hi
            omega
          rw [getElem_map, getElem_take]
          have := (hroot i hi').1
          rw [getD_eq_getElem evals.reverse _ (by omega)] at this
          exact this
        · rw [hs, length_map, length_take, hlE]
          omega

/-- C75: the left vectors are orthonormal in the inner product with the weights, the right vectors are orthonormal, the
singular values are positive and descending, and `Q ψ = σ φ` for every triple. -/
theorem C75_decomposition {n k : Nat} {rows : List (List K)} (hY : (Snap.mat k rows).Shaped n (some k))
    {W : Option (Weights K)} (hW : weightsFit W n) (hp : WeightsPSD W n)
    (eigh : List (List K) → Except Err (List K × Cols K)) (sqrt : K → K) (hlib : SnapLibs k eigh sqrt) (mt : K)
    (L : Cols K) (s : List K) (R : Cols K) (h : methodOfSnapshots eigh sqrt mt W (.mat k rows) = .ok (L, s, R)) :
    L.n = n ∧ L.WF ∧ R.n = k ∧ R.WF ∧ L.cols.length = s.length ∧ R.cols.length = s.length ∧
      Orthonormal L W ∧ Orthonormal R none ∧ s.Pairwise (· ≥ ·) ∧ (∀ b ∈ s, 0 < b) ∧
      ∀ i, i < s.length → matVec rows (R.cols.getD i []) = (L.cols.getD i []).map (s.getD i 0 * ·) := by
  obtain ⟨G, evals, evecs, a, m, h1, h2, h3, h4, h5, h6, h7, h8, h9, h10, h11, h12, h13, h14⟩ :=
    snapshots_inv hY hW hp eigh sqrt hlib mt L s R h
  have he := hlib.eigen G evals evecs h2
  have hlE : evals.reverse.length = k := by simp [he.len]
  have hlV : evecs.cols.reverse.length = k := by simp [he.num]
  have hLl : L.cols.length = m := by
    rw [h11, length_map, length_take, length_zip, hlE, hlV]
    omega
  refine ⟨h9, fun c hc => by rw [h12.Llen c hc, h9], by rw [h10], ?_, by rw [hLl, h14], ?_, ?_, ?_, ?_, h13, ?_⟩
  · rw [h10]
    intro c hc
    have := he.wf c (mem_reverse.mp (mem_of_mem_take hc))
    rw [this, he.n]
  · rw [h10, h14]
    simp only [length_take, hlV]
    omega
  · have := h12.orthL
    rw [← h9] at this
    exact this
  · rw [h10]
    intro i j hi hj
    have hi' : i < (evecs.cols.reverse.take m).length := hi
    have hj' : j < (evecs.cols.reverse.take m).length := hj
    rw [length_take] at hi' hj'
    have := h12.orthR i j (show i < evecs.cols.reverse.length by omega) (show j < evecs.cols.reverse.length by omega)
    simpa [getElem_take] using this
  · rw [pairwise_iff_getElem]
    intro i j hi hj hij
    have e1 := h12.sq i (by omega)
    have e2 := h12.sq j (by omega)
    have hd : (evals.reverse.map (· * (k : K))).getD j 0 ≤ (evals.reverse.map (· * (k : K))).getD i 0 := by
      rw [getD_eq_getElem (map _ _) _ (by rw [length_map]; omega), getD_eq_getElem (map _ _) _ (by rw [length_map]; omega)]
      exact pairwise_iff_getElem.mp h12.desc i j _ _ hij
    rw [← e1, ← e2, getD_eq_getElem s _ hi, getD_eq_getElem s _ hj] at hd
    exact le_of_not_gt fun hlt => absurd hd (not_le.mpr (mul_self_lt_mul_self (h13 _ (getElem_mem _)).le hlt))
  · intro i hi
    rw [h14] at hi
    have hz : i < (zip evals.reverse evecs.cols.reverse).length := by rw [length_zip, hlE, hlV]; omega
    have hb := h13 _ (getElem_mem (l := s) (n := i) (by omega))
    have hie : i < evals.reverse.length := by omega
    have hsi : s.getD i 0 = sqrt (evals.reverse[i] * (k : K)) := by
      have h8' := congrArg (fun x => x.getD i 0) h8
      rw [h8', getD_eq_getElem (map _ _) _ (by rw [length_map, length_take]; omega), getElem_map, getElem_take]
    rw [getD_eq_getElem s _ (by omega)] at hsi
    rw [hsi] at hb
    rw [h10, h11, getD_eq_getElem (take _ _) _ (by rw [length_take]; omega), getElem_take,
      getD_eq_getElem (map _ _) _ (by rw [length_map, length_take]; omega), getElem_map, getElem_take, getElem_zip,
      getD_eq_getElem s _ (by omega), hsi]
    simp only [matVec, map_map]
    apply map_congr_left
    intro row _
    rw [Function.comp_apply]
    have : (fun x : K => x / sqrt (evals.reverse[i] * (k : K))) = fun x => (sqrt (evals.reverse[i] * (k : K)))⁻¹ * x := by
      funext x
      rw [div_eq_inv_mul]
    rw [this, dot_smul_right, ← mul_assoc, mul_inv_cancel₀ hb.ne', one_mul]

/-- C75, the part that holds of "all singular values above the threshold are returned": the squares of the singular
values are `k` times the eigenvalues above `max(minthresh, |least eigenvalue|)`, in descending order. -/
theorem C75_kept_partial {n k : Nat} {rows : List (List K)} (hY : (Snap.mat k rows).Shaped n (some k))
    {W : Option (Weights K)} (hW : weightsFit W n) (hp : WeightsPSD W n)
    (eigh : List (List K) → Except Err (List K × Cols K)) (sqrt : K → K) (hlib : SnapLibs k eigh sqrt) (mt : K)
    (L : Cols K) (s : List K) (R : Cols K) (h : methodOfSnapshots eigh sqrt mt W (.mat k rows) = .ok (L, s, R)) :
    ∃ G evals evecs a, snapGram W k rows = .ok G ∧ eigh G = .ok (evals, evecs) ∧ IsLeast' a evals ∧ 0 ≤ a ∧
      s.map (fun b => b * b) = (evals.reverse.filter fun b => max mt |a| < b).map (· * (k : K)) := by
  obtain ⟨G, evals, evecs, a, m, h1, h2, h3, h4, h5, h6, h7, h8, h9, h10, h11, h12, h13, h14⟩ :=
    snapshots_inv hY hW hp eigh sqrt hlib mt L s R h
  refine ⟨G, evals, evecs, a, h1, h2, h3, ?_, ?_⟩
  · have := h12.nonneg (a * (k : K)) (mem_map_of_mem (mem_reverse.mpr h3.1))
    have hk : (0 : K) < k := by exact_mod_cast h5
    exact nonneg_of_mul_nonneg_left this hk
  · have he := hlib.eigen G evals evecs h2
    have hlE : evals.reverse.length = k := by simp [he.len]
    rw [← h7]
    have hLl : L.cols.length = m := by
      rw [h11, length_map, length_take, length_zip, hlE]
      simp [he.num]
      omega
    apply ext_getElem (by rw [length_map, length_map, length_take, h14]; omega)
    intro i a1 a2
    have hi : i < m := by rw [length_map, h14] at a1; exact a1
    have e1 := h12.sq i (by omega)
    rw [getD_eq_getElem s _ (by omega), getD_eq_getElem (map _ _) _ (by rw [length_map]; omega), getElem_map] at e1
    rw [getElem_map, getElem_map, getElem_take, e1]

/-- C75, the negation of "all singular values above `minthresh` are returned": the smallest of the `k` singular values
never is, whatever the threshold, so that `k` snapshots never yield `k` vectors. -/
theorem C75_smallest_dropped {n k : Nat} {rows : List (List K)} (hY : (Snap.mat k rows).Shaped n (some k))
    {W : Option (Weights K)} (hW : weightsFit W n) (hp : WeightsPSD W n)
    (eigh : List (List K) → Except Err (List K × Cols K)) (sqrt : K → K) (hlib : SnapLibs k eigh sqrt) (mt : K)
    (L : Cols K) (s : List K) (R : Cols K) (h : methodOfSnapshots eigh sqrt mt W (.mat k rows) = .ok (L, s, R)) :
    s.length < k ∧ L.cols.length < k := by
  obtain ⟨G, evals, evecs, a, m, h1, h2, h3, h4, h5, h6, h7, h8, h9, h10, h11, h12, h13, h14⟩ :=
    snapshots_inv hY hW hp eigh sqrt hlib mt L s R h
  have he := hlib.eigen G evals evecs h2
  have hlE : evals.reverse.length = k := by simp [he.len]
  have hm : m < k := by
    by_contra hc
    have hmk : m = k := by omega
    have : a ∈ evals.reverse.take m := by
      rw [take_of_length_le (by omega)]
      exact mem_reverse.mpr h3.1
    rw [h7, mem_filter] at this
    have h0 : max mt |a| < a := by simpa using this.2
    exact absurd (lt_of_le_of_lt (le_trans (le_abs_self a) (le_max_right mt |a|)) h0) (lt_irrefl a)
  refine ⟨by omega, ?_⟩
  rw [h11, length_map, length_take]
  omega

/-- A POD basis with the method of snapshots. -/
structure UsesSnapshots (ext : PodExt K) (s : Pod K) (eigh : List (List K) → Except Err (List K × Cols K)) (mt : K) :
    Prop where
  mos : s.mos = true
  engine : ext.engine = methodOfSnapshots eigh ext.sqrt mt

/-- C75: a POD basis fitted with the method of snapshots, after any number of changes of the dimension: the entries are
orthonormal and approximate the training states best; the error exceeds what `residual_energy` reports by the energy
`lost` in the eigenvalues that were not kept (the smallest one is never kept). The reported value is never too large. -/
theorem C75_best_basis_partial (ext : PodExt K) (s : Pod K) (eigh : List (List K) → Except Err (List K × Cols K)) (mt : K)
    (hu : UsesSnapshots ext s eigh mt) (hc : s.crit.sane) (n k : Nat) (rows : List (List K))
    (hY : (Snap.mat k rows).Shaped n (some k)) (hW : weightsFit s.lin.weights n) (hp : WeightsPSD s.lin.weights n)
    (hlib : SnapLibs k eigh ext.sqrt) (s' : Pod K) (hfit : s.fit ext (.mat k rows) = (s', .ok ()))
    (os : List (PodCall K)) (hos : ∀ o ∈ os, o.dimensionOnly ∧ o.sane) :
    ∃ V P rho lost, BestBasis (os.foldl (PodCall.run ext) s').lin (.mat k rows) P V ∧ V.n = n ∧ V.cols.length < k ∧
      (os.foldl (PodCall.run ext) s').lin.weights = s.lin.weights ∧
      (os.foldl (PodCall.run ext) s').res = some rho ∧ (os.foldl (PodCall.run ext) s').cum = some (1 - rho) ∧
      squaredDistance s.lin.weights (.mat k rows) P =
        rho * (totalEnergy s.lin.weights (.mat k rows) - lost) + lost ∧
      (∃ G evals evecs a, snapGram s.lin.weights k rows = .ok G ∧ eigh G = .ok (evals, evecs) ∧ IsLeast' a evals ∧
        lost = ((evals.filter fun b => b ≤ max mt |a|).map (· * (k : K))).sum) ∧ 0 ≤ lost ∧
      rho * totalEnergy s.lin.weights (.mat k rows) ≤ squaredDistance s.lin.weights (.mat k rows) P := by
  obtain ⟨Z, L, vals, R, V, w, e1, e2, e3, e4, e5, e6, e7⟩ := pod_fit_inv ext s k rows s' hfit
  obtain ⟨c1, c2⟩ := e7 hc
  simp only [Pod.weighted, hu.mos, if_true, Except.ok.injEq] at e1
  simp only [Pod.unweighted, hu.mos, if_true, Except.ok.injEq] at e3
  subst e1 e3
  rw [hu.mos, hu.engine] at e2
  simp only [if_true] at e2
  obtain ⟨G, evals, evecs, a, m, h1, h2, h3, h4, h5, h6, h7, h8, h9, h10, h11, h12, h13, h14⟩ :=
    snapshots_inv hY hW hp eigh ext.sqrt hlib mt L vals R e2
  obtain ⟨-, -, -, -, d5, -, -, -, d9, -, -⟩ := C75_decomposition hY hW hp eigh ext.sqrt hlib mt L vals R e2
  obtain ⟨d1, d2⟩ := C75_smallest_dropped hY hW hp eigh ext.sqrt hlib mt L vals R e2
  have he := hlib.eigen G evals evecs h2
  have hlE : evals.reverse.length = k := by simp [he.len]
  obtain ⟨f1, f2, f3⟩ := dimension_calls ext os hos s' c1 c2
  obtain ⟨V', P, g1, g2, g3, g4, g5, g6, g7⟩ := pod_state _ f1 _ (f2.trans e5) (.mat k rows) (some k)
    (by rw [h9]; exact hY) vals _ _ (by rw [h9, f3, e6]; exact h12.keep (s.keep rows.length k))
  have hcap := captured_normalized vals w d9 e4 V'.cols.length
  rw [hcap.1] at g6 g7
  rw [f3, e6] at g4 g5
  have hVm : V'.cols.length ≤ m := by
    simp only [length_take] at g3
    omega
  set lam := evals.reverse.map (· * (k : K)) with hlam
  have hsq : vals.map (fun b => b * b) = lam.take m := by
    apply ext_getElem (by rw [length_map, h14, length_take, hlam, length_map]; omega)
    intro i a1 a2
    have hi : i < m := by rw [length_map, h14] at a1; exact a1
    have e1 := h12.sq i (by omega)
    rw [getD_eq_getElem vals _ (by omega), getD_eq_getElem lam _ (by rw [hlam, length_map]; omega)] at e1
    rw [getElem_map, getElem_take, e1]
  have hlost : (lam.drop m).sum = ((evals.filter fun b => b ≤ max mt |a|).map (· * (k : K))).sum := by
    have hsplit : (evals.reverse.drop m).Perm (evals.filter fun b => b ≤ max mt |a|) := by
      have p1 : (evals.reverse.take m ++ evals.reverse.drop m).Perm
          (evals.reverse.filter (fun b => max mt |a| < b) ++ evals.reverse.filter fun b => !decide (max mt |a| < b)) := by
        rw [take_append_drop]
        exact (filter_append_perm _ _).symm
      rw [h7] at p1
      have p2 := (perm_append_left_iff _).mp p1
      refine p2.trans ?_
      have : (fun b : K => !decide (max mt |a| < b)) = fun b => decide (b ≤ max mt |a|) := by
        funext b
        rw [← decide_not, decide_eq_decide, not_lt]
      rw [this]
      exact (reverse_perm evals).filter _
    rw [hlam, ← map_drop]
    exact (hsplit.map _).sum_eq
  have hlost0 : 0 ≤ (lam.drop m).sum := sum_nonneg fun b hb => h12.nonneg b (mem_of_mem_drop hb)
  have htot : lam.sum = (lam.take m).sum + (lam.drop m).sum := by rw [← sum_append, take_append_drop]
  have hres := residual_energy vals hcap.2 V'.cols.length
  have hdrop : (lam.drop V'.cols.length).sum = ((lam.take m).drop V'.cols.length).sum + (lam.drop m).sum := by
    have : lam.drop V'.cols.length = (lam.take m).drop V'.cols.length ++ lam.drop m := by
      conv_lhs => rw [← take_append_drop m lam]
      rw [drop_append_of_le_length (by rw [length_take, hlam, length_map]; omega)]
    rw [this, sum_append]
  rw [hsq] at hres
  have hmain : squaredDistance s.lin.weights (.mat k rows) P =
      (1 - captured vals V'.cols.length) * (totalEnergy s.lin.weights (.mat k rows) - (lam.drop m).sum) +
        (lam.drop m).sum := by
    rw [g4, g5, hdrop, ← hres, htot]
    ring
  have hcap0 : 0 ≤ captured vals V'.cols.length := by
    rw [← captured_zero vals]
    exact captured_mono vals (Nat.zero_le _)
  refine ⟨V', P, _, (lam.drop m).sum, g1, by rw [g2, h9], by omega, f3.trans e6, g7, by rw [g6]; congr 1; ring, hmain,
    ⟨G, evals, evecs, a, h1, h2, h3, hlost⟩, hlost0, ?_⟩
  rw [hmain]
  have := mul_nonneg hcap0 hlost0
  linarith

/-- C75, the negation for equally long orthogonal snapshots, in particular for every single snapshot: `fit` raises
IndexError because no singular value is left. -/
theorem C75_orthogonal_snapshots (ext : PodExt K) (s : Pod K) (eigh : List (List K) → Except Err (List K × Cols K))
    (mt : K) (hu : UsesSnapshots ext s eigh mt) (n k : Nat) (rows : List (List K))
    (hY : (Snap.mat k rows).Shaped n (some k)) (hW : weightsFit s.lin.weights n) (hp : WeightsPSD s.lin.weights n)
    (hlib : SnapLibs k eigh ext.sqrt) (c : K) (hk : 0 < k)
    (hortho : ∀ i j, i < k → j < k → dot ((Snap.mat k rows).column i) (wvec s.lin.weights ((Snap.mat k rows).column j)) =
      if i = j then c else 0)
    (hok : ∀ G, ∃ e, eigh G = .ok e) : (s.fit ext (.mat k rows)).2 = .error .index ∧ (s.fit ext (.mat k rows)).1.lin = s.lin := by
  obtain ⟨G, g1, g2, g3, g4⟩ := snapGram_ok hY hW
  obtain ⟨⟨evals, evecs⟩, hE⟩ := hok G
  have he := hlib.eigen G evals evecs hE
  have hk0 : (k : K) ≠ 0 := by exact_mod_cast hk.ne'
  -- all eigenvalues are equal
  have hall : ∀ b ∈ evals, b = c / k := by
    intro b hb
    rw [mem_iff_getElem] at hb
    obtain ⟨i, hi, rfl⟩ := hb
    have hik : i < k := by rw [← he.len]; exact hi
    set v := evecs.cols.getD i [] with hv
    have hvl : v.length = k := by
      rw [hv, getD_eq_getElem evecs.cols _ (by rw [he.num]; exact hik)]
      rw [he.wf _ (getElem_mem _), he.n]
    have hGv : matVec G v = v.map (c / k * ·) := by
      apply ext_getElem (by simp [matVec, g2, hvl])
      intro t a1 a2
      have ht : t < k := by simpa [matVec, g2] using a1
      simp only [matVec, getElem_map]
      have hrow : G[t]'(by omega) = (range k).map fun j => if t = j then c / k else 0 := by
        apply ext_getElem (by rw [g3 _ (getElem_mem _)]; simp)
        intro j b1 b2
        have hj : j < k := by simpa using b2
        have e := g4 t j ht hj
        rw [columnsOf_getD _ _ ht, columnsOf_getD _ _ hj, hortho t j ht hj, getD_eq_getElem G _ (by omega),
          getD_eq_getElem (G[t]) _ b1] at e
        simp only [getElem_map, getElem_range]
        rw [eq_comm, ← mul_right_inj' hk0, e]
        split
        · field_simp
        · rw [mul_zero]
      rw [hrow, dot_range k _ v hvl, Finset.sum_congr rfl (g := fun j => if t = j then c / k * v.getD j 0 else 0)]
      · rw [Finset.sum_ite_eq (Finset.range k) t]
        rw [if_pos (Finset.mem_range.mpr ht), getD_eq_getElem v _ (by omega)]
      · intro j _
        split <;> simp
    have heig := he.eig i hik
    rw [← hv, hGv] at heig
    have hnorm := he.orth i i (by rw [he.num]; exact hik) (by rw [he.num]; exact hik)
    simp only [wvec, if_true] at hnorm
    rw [← getD_eq_getElem evecs.cols [] (by rw [he.num]; exact hik), ← hv] at hnorm
    have e2 := congrArg (fun x => dot v x) heig
    simp only [dot_smul_right, hnorm, mul_one] at e2
    rw [getD_eq_getElem evals _ hi] at e2
    exact e2.symm
  have hE' : eigh G = .ok (evals, evecs) := hE
  have hne : evals ≠ [] := by
    intro h0
    have := he.len
    rw [h0] at this
    simp at this
    omega
  have hleast : IsLeast' (c / k) evals.reverse := by
    obtain ⟨b, l, hb⟩ := exists_cons_of_ne_nil hne
    refine ⟨?_, fun x hx => (hall x (mem_reverse.mp hx)).ge⟩
    rw [mem_reverse, ← hall b (by rw [hb]; simp), hb]
    simp
  have hkept : snapKept mt evals evecs = .ok [] := by
    simp only [snapKept, snapThreshold_least mt (c / k) _ hleast, bind, Except.bind, pure, Except.pure, Except.ok.injEq]
    rw [filter_eq_nil_iff]
    rintro ⟨x, y⟩ hx
    have := hall x (mem_reverse.mp (of_mem_zip hx).1)
    simp only [decide_eq_true_eq, not_lt, this]
    exact le_trans (le_abs_self _) (le_max_right _ _)
  have hmos : methodOfSnapshots eigh ext.sqrt mt s.lin.weights (.mat k rows) = .ok (⟨rows.length, []⟩, [], ⟨k, []⟩) := by
    simp [methodOfSnapshots, g1, hE', hkept, bind, Except.bind, pure, Except.pure]
  constructor <;> simp only [Pod.fit, Pod.decompose, Pod.weighted, Pod.unweighted, hu.mos, hu.engine, if_true, bind, Except.bind, hmos,
    pure, Except.pure, Pod.storeSvd, normalizeVals, insertionSort_nil]

/-! ### Witnesses and examples -/

/-- An eigenvalue decomposition of diagonal matrices with descending entries, and nothing else. -/
def exEigh : List (List ℚ) → Except Err (List ℚ × Cols ℚ)
  | [[a]] => .ok ([a], ⟨1, [[1]]⟩)
  | [[a, b], [c, d]] => if b = 0 ∧ c = 0 ∧ d ≤ a then .ok ([d, a], ⟨2, [[0, 1], [1, 0]]⟩) else .error .linalg
  | _ => .error .linalg

/-- Libraries with the method of snapshots. -/
def exSnapExt : PodExt ℚ where
  sqrt x := if x = 4 then 2 else if x = 1 then 1 else 0
  sqrtm A := A
  choSolve _ v := v
  engine := methodOfSnapshots exEigh (fun x => if x = 4 then 2 else if x = 1 then 1 else 0) (1/1000)

/-- A basis that is to capture all but a millionth of the energy with the method of snapshots. -/
def exSnapPod : Pod ℚ :=
  ⟨⟨none, none, none, none, none⟩, .resE (1/1000000), none, true, false, false, none, none, none⟩

/-- C75, the negation of "`residual_energy` is the relative squared projection error": the snapshots `(2, 0)` and
`(0, 1)` give one vector and a residual energy of 0, although the error is a fifth of the energy. -/
theorem C75_energy_witness :
    (exSnapPod.fit exSnapExt (.mat 2 [[2, 0], [0, 1]])).2 = .ok () ∧
    (exSnapPod.fit exSnapExt (.mat 2 [[2, 0], [0, 1]])).1.lin.entries = some ⟨2, [[1, 0]]⟩ ∧
    (exSnapPod.fit exSnapExt (.mat 2 [[2, 0], [0, 1]])).1.res = some 0 ∧
    linI.project (exSnapPod.fit exSnapExt (.mat 2 [[2, 0], [0, 1]])).1.lin (.mat 2 [[2, 0], [0, 1]]) =
      .ok (.mat 2 [[2, 0], [0, 0]]) ∧
    squaredDistance none (.mat 2 [[2, 0], [0, 1]] : Snap ℚ) (.mat 2 [[2, 0], [0, 0]]) = 1 ∧
    totalEnergy none (.mat 2 [[2, 0], [0, 1]] : Snap ℚ) = 5 := by
  refine ⟨?_, ?_, ?_, ?_, ?_, ?_⟩ <;> decide +kernel

/-- C75, the negation for one snapshot: a POD basis cannot be fitted to it. -/
theorem C75_single_snapshot_witness :
    exSnapPod.fit exSnapExt (.mat 1 [[2], [0]]) = (exSnapPod, .error .index) := by decide +kernel

example : UsesSnapshots exSnapExt exSnapPod exEigh (1/1000) ∧ exSnapPod.crit.sane ∧
    (Snap.mat 2 [[2, 0], [0, 1]] : Snap ℚ).Shaped 2 (some 2) ∧ weightsFit exSnapPod.lin.weights 2 ∧
    WeightsPSD exSnapPod.lin.weights 2 :=
  ⟨⟨rfl, rfl⟩, trivial, ⟨by simp [Snap.WF], rfl, rfl⟩, trivial, (C42_weights_psd 2 [] (by simp)).1⟩

/-- A decomposition that knows the Gramian of the witness. -/
def exEigh2 (G : List (List ℚ)) : Except Err (List ℚ × Cols ℚ) :=
  if G = [[2, 0], [0, 1/2]] then .ok ([1/2, 2], ⟨2, [[0, 1], [1, 0]]⟩) else .error .linalg

example : SnapLibs 2 exEigh2 exSnapExt.sqrt ∧
    methodOfSnapshots exEigh2 exSnapExt.sqrt (1/1000) none (.mat 2 [[2, 0], [0, 1]]) =
      .ok (⟨2, [[1, 0]]⟩, [2], ⟨2, [[1, 0]]⟩) := by
  have hcase : ∀ G evals evecs, exEigh2 G = .ok (evals, evecs) →
      G = [[2, 0], [0, 1/2]] ∧ evals = [1/2, 2] ∧ evecs = ⟨2, [[0, 1], [1, 0]]⟩ := by
    intro G evals evecs h
    simp only [exEigh2] at h
    split at h
    · rename_i hG
      simp only [Except.ok.injEq, Prod.mk.injEq] at h
      exact ⟨hG, h.1.symm, h.2.symm⟩
    · cases h
  refine ⟨⟨?_, ?_⟩, by decide +kernel⟩
  · intro G evals evecs h
    obtain ⟨rfl, rfl, rfl⟩ := hcase G evals evecs h
    refine ⟨rfl, rfl, by simp [Cols.WF], rfl, (orthonormal_iff _ _).2 (by decide +kernel), by decide +kernel, ?_⟩
    intro i hi
    have : i = 0 ∨ i = 1 := by omega
    rcases this with rfl | rfl <;> decide +kernel
  · intro G evals evecs h
    obtain ⟨rfl, rfl, rfl⟩ := hcase G evals evecs h
    decide +kernel

end Opinf
