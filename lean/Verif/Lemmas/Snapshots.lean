import Verif.Model.Snapshots
import Verif.Lemmas.PodRoot

/-!
# Helper lemmas about the method of snapshots
-/

namespace Opinf

open List

variable {K : Type} [Field K] [LinearOrder K] [IsStrictOrderedRing K]

/-- What `eigh` returns for a symmetric matrix: ascending eigenvalues and orthonormal eigenvectors. -/
structure IsEigh (k : Nat) (G : List (List K)) (evals : List K) (evecs : Cols K) : Prop where
  len : evals.length = k
  n : evecs.n = k
  wf : evecs.WF
  num : evecs.cols.length = k
  orth : Orthonormal evecs none
  asc : evals.Pairwise (· ≤ ·)
  eig : ∀ i, i < k → matVec G (evecs.cols.getD i []) = (evecs.cols.getD i []).map (evals.getD i 0 * ·)

omit [IsStrictOrderedRing K] in
theorem filter_desc {β : Type} (thr : K) (l : List (K × β)) (h : l.Pairwise fun a b => a.1 ≥ b.1) :
    l.filter (fun p => thr < p.1) = l.take (l.filter fun p => thr < p.1).length := by
  induction l with
  | nil => rfl
  | cons a l ih =>
    rw [pairwise_cons] at h
    by_cases ha : thr < a.1
    · rw [filter_cons_of_pos (by simpa using ha), length_cons, take_succ_cons]
      rw [← ih h.2]
    · have : l.filter (fun p => thr < p.1) = [] := by
        rw [filter_eq_nil_iff]
        intro b hb
        have := h.1 b hb
        simp only [decide_eq_true_eq, not_lt] at ha ⊢
        exact le_trans this ha
      rw [filter_cons_of_neg (by simpa using ha), this]
      rfl

omit [LinearOrder K] [IsStrictOrderedRing K] in
/-- Combination of the columns. -/
theorem dot_matVec_columns {n k : Nat} {rows : List (List K)} (hY : (Snap.mat k rows).Shaped n (some k)) (x z : List K)
    (hx : x.length = k) : dot (matVec rows x) z = dot x (matVec (columnsOf (.mat k rows)) z) := by
  have hr : rows = transpose n (columnsOf (.mat k rows)) := by
    have hl : rows.length = n := hY.len
    apply ext_getElem (by simp [transpose, hl])
    intro i h1 h2
    have hrow : rows[i].length = k := hY.wf _ (getElem_mem h1)
    apply ext_getElem (by simp [transpose, columnsOf, Snap.width, hrow])
    intro j h3 h4
    simp [transpose, columnsOf, Snap.column, Snap.width, h1, h3]
  have hc : ∀ q ∈ columnsOf (.mat k rows), q.length = n := by
    intro q hq
    simp only [columnsOf, mem_map] at hq
    obtain ⟨j, -, rfl⟩ := hq
    rw [Snap.length_column, hY.len]
  conv_lhs => rw [hr]
  rw [matVec_transpose n _ x hc, dot_vecMat n _ _ _ hc]

/-- The Gramian. -/
theorem snapGram_ok {n k : Nat} {rows : List (List K)} (hY : (Snap.mat k rows).Shaped n (some k))
    {W : Option (Weights K)} (hW : weightsFit W n) :
    ∃ G, snapGram W k rows = .ok G ∧ G.length = k ∧ (∀ g ∈ G, g.length = k) ∧ ∀ i j, i < k → j < k →
      (k : K) * (G.getD i []).getD j 0 =
        dot ((columnsOf (.mat k rows)).getD i []) (wvec W ((columnsOf (.mat k rows)).getD j [])) := by
  have hS : (Snap.mat k (rows.map fun row => row.map (· / (k : K)))).Shaped n (some k) := by
    refine ⟨?_, by have := hY.len; simpa [Snap.len] using this, rfl⟩
    intro row hr
    rw [mem_map] at hr
    obtain ⟨row', hr', rfl⟩ := hr
    simpa using hY.wf row' hr'
  obtain ⟨Z, z1, z2, z3⟩ := applyWeights_ok hW hS
  cases Z with
  | vec xs => have := z2.cols; simp [Snap.cols] at this
  | mat k' rows' =>
    have hk : k' = k := by have := z2.cols; simpa [Snap.cols] using this
    subst hk
    refine ⟨(range k').map fun i => (range k').map fun j => dot (rowsColumn rows i) (rowsColumn rows' j), by
      simp only [snapGram, z1, bind, Except.bind, pure, Except.pure], by simp, ?_, ?_⟩
    · intro g hg
      rw [mem_map] at hg
      obtain ⟨i, -, rfl⟩ := hg
      simp
    · intro i j hi hj
      have hk0 : (k' : K) ≠ 0 := by
        have : 0 < k' := by omega
        exact_mod_cast this.ne'
      have hg : ((map (fun i => map (fun j => dot (rowsColumn rows i) (rowsColumn rows' j)) (range k')) (range k')).getD i []).getD j 0
          = dot (rowsColumn rows i) (rowsColumn rows' j) := by
        rw [getD_eq_getElem (map _ _) _ (by simpa using hi), getElem_map, getElem_range,
          getD_eq_getElem (map _ _) _ (by simpa using hj), getElem_map, getElem_range]
      have hcol : rowsColumn rows' j = wvec W ((Snap.mat k' (rows.map fun row => row.map (· / (k' : K)))).column j) :=
        z3 j hj
      rw [hg, columnsOf_getD _ _ hi, columnsOf_getD _ _ hj, hcol]
      have hc2 : (Snap.mat k' (rows.map fun row => row.map (· / (k' : K)))).column j =
          ((Snap.mat k' rows).column j).map (fun x => (k' : K)⁻¹ * x) := by
        simp only [Snap.column, map_map]
        apply map_congr_left
        intro row hr
        have hj' : j < row.length := by rw [hY.wf row hr]; exact hj
        simp only [Function.comp_apply]
        rw [getD_eq_getElem (map _ _) _ (by simpa using hj'), getElem_map, getD_eq_getElem row _ hj', div_eq_inv_mul]
      rw [hc2, dot_wvec hW, dot_wvec hW]
      have hsc : ∀ a b : List K, ∀ t : K, dot a (b.map (t * ·)) = t * dot a b := by
        intro a b t
        induction a generalizing b with
        | nil => simp
        | cons x a ih =>
          cases b with
          | nil => simp
          | cons y b => simp only [map_cons, dot_cons, ih b]; ring
      rw [hsc, ← mul_assoc, mul_inv_cancel₀ hk0, one_mul]
      rfl

omit [LinearOrder K] [IsStrictOrderedRing K] in
theorem getD_reverse {α : Type} (l : List α) (d : α) (i : Nat) (hi : i < l.length) :
    l.reverse.getD i d = l.getD (l.length - 1 - i) d := by
  rw [getD_eq_getElem l.reverse _ (by simpa using hi), getElem_reverse, getD_eq_getElem l _ (by omega)]

omit [LinearOrder K] [IsStrictOrderedRing K] in
theorem dot_smul_right (a b : List K) (t : K) : dot a (b.map (t * ·)) = t * dot a b := by
  induction a generalizing b with
  | nil => simp
  | cons x a ih =>
    cases b with
    | nil => simp
    | cons y b => simp only [map_cons, dot_cons, ih b]; ring

/-- All eigenvalues and eigenvectors in descending order, and the first `m` left vectors. -/
theorem podCore_snapshots {n k : Nat} {rows : List (List K)} (hY : (Snap.mat k rows).Shaped n (some k))
    {W : Option (Weights K)} (hW : weightsFit W n) (hp : WeightsPSD W n) (G : List (List K))
    (hG : snapGram W k rows = .ok G) (evals : List K) (evecs : Cols K) (he : IsEigh k G evals evecs) (sqrt : K → K)
    (m : Nat) (hm : m ≤ k)
    (hpos : ∀ i, i < m → sqrt (evals.reverse.getD i 0 * (k : K)) ≠ 0 ∧
      sqrt (evals.reverse.getD i 0 * (k : K)) * sqrt (evals.reverse.getD i 0 * (k : K)) = evals.reverse.getD i 0 * (k : K)) :
    PodCore W n (columnsOf (.mat k rows))
      (((zip evals.reverse evecs.cols.reverse).take m).map fun p => matVec rows (p.2.map (· / sqrt (p.1 * (k : K)))))
      (((zip evals.reverse evecs.cols.reverse).take m).map fun p => sqrt (p.1 * (k : K)))
      (evals.reverse.map (· * (k : K))) evecs.cols.reverse := by
  obtain ⟨G', g1, g2, g3, g4⟩ := snapGram_ok hY hW
  have : G' = G := by rw [hG] at g1; exact (Except.ok.inj g1).symm
  subst this
  have hqs : (columnsOf (.mat k rows)).length = k := columnsOf_length _
  have hqn := length_columns (K := K) hY
  have hlenE : evals.reverse.length = k := by simp [he.len]
  have hlenV : evecs.cols.reverse.length = k := by simp [he.num]
  -- eigenvectors in descending order
  have hRlen : ∀ i, i < k → (evecs.cols.reverse.getD i []).length = k := by
    intro i hi
    rw [getD_eq_getElem evecs.cols.reverse _ (by omega)]
    have := he.wf _ (mem_reverse.mp (getElem_mem (l := evecs.cols.reverse) (n := i) (by omega)))
    rw [this, he.n]
  have hRorth : ∀ i j, i < k → j < k →
      dot (evecs.cols.reverse.getD i []) (evecs.cols.reverse.getD j []) = if i = j then 1 else 0 := by
    intro i j hi hj
    rw [getD_reverse _ _ _ (by rw [he.num]; exact hi), getD_reverse _ _ _ (by rw [he.num]; exact hj), he.num,
      getD_eq_getElem evecs.cols _ (by rw [he.num]; omega), getD_eq_getElem evecs.cols _ (by rw [he.num]; omega)]
    have := he.orth (k - 1 - i) (k - 1 - j) (by rw [he.num]; omega) (by rw [he.num]; omega)
    simp only [wvec] at this
    rw [this]
    by_cases hij : i = j
    · rw [if_pos hij, if_pos (by omega)]
    · rw [if_neg hij, if_neg (by omega)]
  have hReig : ∀ i, i < k → matVec G' (evecs.cols.reverse.getD i []) =
      (evecs.cols.reverse.getD i []).map (evals.reverse.getD i 0 * ·) := by
    intro i hi
    rw [getD_reverse _ _ _ (by rw [he.num]; exact hi), getD_reverse _ _ _ (by rw [he.len]; exact hi), he.num, he.len]
    exact he.eig _ (by omega)
  -- inner products of the snapshots with combinations of the snapshots
  have hcomb : ∀ l j, l < k → j < k →
      dot (evecs.cols.reverse.getD l []) (matVec (columnsOf (.mat k rows)) (wvec W ((columnsOf (.mat k rows)).getD j []))) =
      evals.reverse.getD l 0 * (k : K) * (evecs.cols.reverse.getD l []).getD j 0 := by
    intro l j hl hj
    have e1 : matVec (columnsOf (.mat k rows)) (wvec W ((columnsOf (.mat k rows)).getD j [])) =
        (G'.getD j []).map ((k : K) * ·) := by
      have hgl : (G'.getD j []).length = k := by
        rw [getD_eq_getElem G' _ (by omega)]
        exact g3 _ (getElem_mem _)
      apply ext_getElem (by rw [length_map, hgl, matVec, length_map, hqs])
      intro i a1 a2
      have hi : i < k := by simpa [matVec, hqs] using a1
      have hb := g4 j i hj hi
      rw [hp.symm _ _ (hqn _ (by rw [getD_eq_getElem (columnsOf _) _ (by omega)]; exact getElem_mem _))
        (hqn _ (by rw [getD_eq_getElem (columnsOf _) _ (by omega)]; exact getElem_mem _))] at hb
      simp only [matVec, getElem_map]
      rw [getD_eq_getElem (G'.getD j []) _ (by omega)] at hb
      rw [hb, getD_eq_getElem (columnsOf _) _ (show i < _ by omega)]
    have e2 := congrArg (fun v => v.getD j 0) (hReig l hl)
    simp only [matVec] at e2
    rw [getD_eq_getElem (map _ G') _ (by simp; omega), getElem_map,
      getD_eq_getElem (map _ (evecs.cols.reverse.getD l [])) _ (by rw [length_map, hRlen l hl]; exact hj), getElem_map] at e2
    rw [e1, dot_smul_right, dot_comm', getD_eq_getElem G' _ (by omega), e2,
      getD_eq_getElem (evecs.cols.reverse.getD l []) _ (by rw [hRlen l hl]; exact hj)]
    ring
  have hzl : (zip evals.reverse evecs.cols.reverse).length = k := by simp [he.len, he.num]
  have hzi : ∀ i (hi : i < k), (zip evals.reverse evecs.cols.reverse)[i]'(by omega) =
      (evals.reverse.getD i 0, evecs.cols.reverse.getD i []) := by
    intro i hi
    rw [getElem_zip, getD_eq_getElem evals.reverse _ (by omega), getD_eq_getElem evecs.cols.reverse _ (by omega)]
  have htl : ((zip evals.reverse evecs.cols.reverse).take m).length = m := by rw [length_take, hzl]; omega
  have hti : ∀ i (hi : i < m), ((zip evals.reverse evecs.cols.reverse).take m)[i]'(by omega) =
      (evals.reverse.getD i 0, evecs.cols.reverse.getD i []) := by
    intro i hi
    rw [getElem_take, hzi i (by omega)]
  -- the left vectors
  have hLi : ∀ i, i < m → (((zip evals.reverse evecs.cols.reverse).take m).map fun p =>
      matVec rows (p.2.map (· / sqrt (p.1 * (k : K))))).getD i [] =
      matVec rows ((evecs.cols.reverse.getD i []).map (· / sqrt (evals.reverse.getD i 0 * (k : K)))) := by
    intro i hi
    rw [getD_eq_getElem (map _ _) _ (by rw [length_map, htl]; exact hi), getElem_map, hti i hi]
  have hSi : ∀ i, i < m → (((zip evals.reverse evecs.cols.reverse).take m).map fun p =>
      sqrt (p.1 * (k : K))).getD i 0 = sqrt (evals.reverse.getD i 0 * (k : K)) := by
    intro i hi
    rw [getD_eq_getElem (map _ _) _ (by rw [length_map, htl]; exact hi), getElem_map, hti i hi]
  have hLdot : ∀ l z, l < m → dot (matVec rows ((evecs.cols.reverse.getD l []).map
      (· / sqrt (evals.reverse.getD l 0 * (k : K))))) z =
      (sqrt (evals.reverse.getD l 0 * (k : K)))⁻¹ *
        dot (evecs.cols.reverse.getD l []) (matVec (columnsOf (.mat k rows)) z) := by
    intro l z hl
    rw [dot_matVec_columns hY _ _ (by rw [length_map, hRlen l (by omega)]), dot_comm', dot_comm' (evecs.cols.reverse.getD l [])]
    have : (fun x : K => x / sqrt (evals.reverse.getD l 0 * (k : K))) =
        fun x => (sqrt (evals.reverse.getD l 0 * (k : K)))⁻¹ * x := by
      funext x
      rw [div_eq_inv_mul]
    rw [this, dot_smul_right]
  have hcoords : ∀ l j, l < m → j < k →
      dot (matVec rows ((evecs.cols.reverse.getD l []).map (· / sqrt (evals.reverse.getD l 0 * (k : K)))))
        (wvec W ((columnsOf (.mat k rows)).getD j [])) =
      sqrt (evals.reverse.getD l 0 * (k : K)) * (evecs.cols.reverse.getD l []).getD j 0 := by
    intro l j hl hj
    obtain ⟨p1, p2⟩ := hpos l hl
    rw [hLdot l _ hl, hcomb l j (by omega) hj]
    generalize sqrt (evals.reverse.getD l 0 * (k : K)) = t at p1 p2 ⊢
    rw [← p2, ← mul_assoc, ← mul_assoc, inv_mul_cancel₀ p1, one_mul]
  constructor
  · exact hW
  · exact hp
  · exact hqn
  · intro c hc
    rw [mem_map] at hc
    obtain ⟨p, -, rfl⟩ := hc
    have := hY.len
    simp only [Snap.len] at this
    simp [matVec, this]
  · intro c hc
    rw [he.wf c (mem_reverse.mp hc), he.n, hqs]
  · simp [he.len, he.num]
  · rw [length_map, htl, hlenV]
    exact hm
  · intro i j hi hj
    have hi' : i < m := by
      have h0 : i < (map _ (take m _)).length := hi
      rw [length_map, htl] at h0
      exact h0
    have hj' : j < m := by
      have h0 : j < (map _ (take m _)).length := hj
      rw [length_map, htl] at h0
      exact h0
    have a1 := hLi i hi'
    have a2 := hLi j hj'
    rw [getD_eq_getElem (map _ _) _ (by rw [length_map, htl]; exact hi')] at a1
    rw [getD_eq_getElem (map _ _) _ (by rw [length_map, htl]; exact hj')] at a2
    change dot (map _ _)[i] (wvec W (map _ _)[j]) = _
    rw [a1, a2]
    have hlen : (matVec rows ((evecs.cols.reverse.getD i []).map (· / sqrt (evals.reverse.getD i 0 * (k : K))))).length = n := by
      have := hY.len
      simp only [Snap.len] at this
      simp [matVec, this]
    have hlen2 : (matVec rows ((evecs.cols.reverse.getD j []).map (· / sqrt (evals.reverse.getD j 0 * (k : K))))).length = n := by
      have := hY.len
      simp only [Snap.len] at this
      simp [matVec, this]
    rw [hp.symm _ _ hlen hlen2, hLdot j _ hj']
    have e1 : matVec (columnsOf (.mat k rows)) (wvec W (matVec rows ((evecs.cols.reverse.getD i []).map
        (· / sqrt (evals.reverse.getD i 0 * (k : K)))))) =
        (evecs.cols.reverse.getD i []).map (sqrt (evals.reverse.getD i 0 * (k : K)) * ·) := by
      apply ext_getElem (by simp only [matVec, length_map, hqs, hRlen i (by omega)])
      intro t b1 b2
      have ht : t < k := by simpa [matVec, hqs] using b1
      have c1 := hcoords i t hi' ht
      simp only [matVec, getElem_map] at c1 ⊢
      rw [hp.symm _ _ (hqn _ (getElem_mem _)) (by simpa [matVec] using hlen)]
      rw [getD_eq_getElem (columnsOf _) _ (show t < _ by omega),
        getD_eq_getElem (evecs.cols.reverse.getD i []) _ (by rw [hRlen i (by omega)]; exact ht)] at c1
      exact c1
    rw [e1, dot_smul_right, hRorth j i (by omega) (by omega)]
    obtain ⟨p1, -⟩ := hpos i hi'
    by_cases hij : i = j
    · subst hij
      simp only [if_true, mul_one]
      exact inv_mul_cancel₀ p1
    · rw [if_neg hij, if_neg (fun h => hij h.symm), mul_zero, mul_zero]
  · intro i j hi hj
    have hi' : i < k := by simpa [he.num] using hi
    have hj' : j < k := by simpa [he.num] using hj
    have := hRorth i j hi' hj'
    rw [getD_eq_getElem evecs.cols.reverse _ (by omega), getD_eq_getElem evecs.cols.reverse _ (by omega)] at this
    simpa [wvec] using this
  · rw [pairwise_map, pairwise_reverse]
    refine he.asc.imp ?_
    intro a b hab
    exact mul_le_mul_of_nonneg_right hab (Nat.cast_nonneg k)
  · intro a ha
    rw [mem_map] at ha
    obtain ⟨b, hb, rfl⟩ := ha
    rw [mem_iff_getElem] at hb
    obtain ⟨l, hl, rfl⟩ := hb
    have hl' : l < k := by omega
    -- `ψᵀ (k G) ψ` is a squared norm
    have e1 : matVec (columnsOf (.mat k rows)) (wvec W (matVec rows (evecs.cols.reverse.getD l []))) =
        (evecs.cols.reverse.getD l []).map (evals.reverse.getD l 0 * (k : K) * ·) := by
      apply ext_getElem (by simp only [matVec, length_map, hqs, hRlen l hl'])
      intro t b1 b2
      have ht : t < k := by simpa [matVec, hqs] using b1
      have c1 := hcomb l t hl' ht
      have hrl : (matVec rows (evecs.cols.reverse.getD l [])).length = n := by
        have := hY.len
        simp only [Snap.len] at this
        simp [matVec, this]
      rw [← dot_matVec_columns hY _ _ (hRlen l hl')] at c1
      rw [hp.symm _ _ hrl (hqn _ (by rw [getD_eq_getElem (columnsOf _) _ (by omega)]; exact getElem_mem _))] at c1
      rw [getD_eq_getElem (columnsOf _) _ (show t < _ by omega),
        getD_eq_getElem (evecs.cols.reverse.getD l []) _ (by rw [hRlen l hl']; exact ht)] at c1
      simp only [matVec, getElem_map] at c1 ⊢
      exact c1
    have hrl : (matVec rows (evecs.cols.reverse.getD l [])).length = n := by
      have := hY.len
      simp only [Snap.len] at this
      simp [matVec, this]
    have hnn := hp.nonneg _ hrl
    rw [wnorm2, dot_matVec_columns hY _ _ (hRlen l hl'), e1, dot_smul_right, hRorth l l hl' hl', if_pos rfl, mul_one,
      getD_eq_getElem evals.reverse _ (by omega)] at hnn
    exact hnn
  · intro i j hi hj
    rw [hqs] at hi hj
    -- completeness of the eigenvectors
    have horth : toM k k evecs.cols.reverse * (toM k k evecs.cols.reverse).transpose = 1 := by
      ext a b
      have := gram_apply (W := none) (n := k) trivial evecs.cols.reverse evecs.cols.reverse hlenV
        (fun c hc => by rw [he.wf c (mem_reverse.mp hc), he.n]) hlenV
        (fun c hc => by rw [he.wf c (mem_reverse.mp hc), he.n]) a b
      simp only [wM, Matrix.mul_one, wvec] at this
      rw [this, hRorth a b a.2 b.2, Matrix.one_apply]
      simp only [Fin.ext_iff]
    have hcompl := mul_eq_one_comm.mp horth
    have hent : ∀ a b : Fin k, ∑ l : Fin k, (evecs.cols.reverse.getD l []).getD a 0 * (evecs.cols.reverse.getD l []).getD b 0 =
        if a = b then 1 else 0 := by
      intro a b
      have := congrFun (congrFun hcompl a) b
      rw [Matrix.mul_apply, Matrix.one_apply] at this
      simpa [toM_apply] using this
    have hfin : ∀ (a : Fin evecs.cols.reverse.length), True := fun _ => trivial
    rw [Finset.sum_congr rfl (g := fun l : Fin evecs.cols.reverse.length =>
      dot (evecs.cols.reverse.getD l []) (matVec (columnsOf (.mat k rows)) (wvec W ((columnsOf (.mat k rows)).getD j []))) *
        (evecs.cols.reverse.getD l []).getD i 0)]
    · have hsum : (∑ l : Fin evecs.cols.reverse.length,
          dot (evecs.cols.reverse.getD l []) (matVec (columnsOf (.mat k rows)) (wvec W ((columnsOf (.mat k rows)).getD j []))) *
          (evecs.cols.reverse.getD l []).getD i 0) =
          ∑ l : Fin k, dot (evecs.cols.reverse.getD l [])
            (matVec (columnsOf (.mat k rows)) (wvec W ((columnsOf (.mat k rows)).getD j []))) *
          (evecs.cols.reverse.getD l []).getD i 0 := by
        rw [← Fin.sum_congr' _ hlenV]
        rfl
      rw [hsum]
      have hx : (matVec (columnsOf (.mat k rows)) (wvec W ((columnsOf (.mat k rows)).getD j []))).length = k := by
        simp [matVec, hqs]
      have hd : ∀ l : Fin k, dot (evecs.cols.reverse.getD l [])
            (matVec (columnsOf (.mat k rows)) (wvec W ((columnsOf (.mat k rows)).getD j []))) *
          (evecs.cols.reverse.getD l []).getD i 0 = ∑ a : Fin k,
          (matVec (columnsOf (.mat k rows)) (wvec W ((columnsOf (.mat k rows)).getD j []))).getD a 0 *
          ((evecs.cols.reverse.getD l []).getD a 0 * (evecs.cols.reverse.getD l []).getD i 0) := by
        intro l
        rw [dot_fin k _ _ (hRlen l l.2) hx, Finset.sum_mul]
        exact Finset.sum_congr rfl fun a _ => by ring
      rw [Finset.sum_congr rfl fun l _ => hd l, Finset.sum_comm]
      have hd2 : ∀ a : Fin k, ∑ l : Fin k,
          (matVec (columnsOf (.mat k rows)) (wvec W ((columnsOf (.mat k rows)).getD j []))).getD a 0 *
          ((evecs.cols.reverse.getD l []).getD a 0 * (evecs.cols.reverse.getD l []).getD i 0) =
          if a = ⟨i, hi⟩ then (matVec (columnsOf (.mat k rows)) (wvec W ((columnsOf (.mat k rows)).getD j []))).getD a 0
            else 0 := by
        intro a
        rw [← Finset.mul_sum, hent a ⟨i, hi⟩]
        split <;> simp
      rw [Finset.sum_congr rfl fun a _ => hd2 a, Finset.sum_ite_eq' Finset.univ (⟨i, hi⟩ : Fin k)]
      simp only [Finset.mem_univ, if_true, matVec]
      rw [getD_eq_getElem (map _ _) _ (by rw [length_map, hqs]; exact hi), getElem_map,
        getD_eq_getElem (columnsOf _) _ (show i < _ by omega)]
    · intro l _
      have hl : (l : Nat) < k := by have := l.2; omega
      rw [hcomb l j hl hj, getD_eq_getElem (map _ evals.reverse) _ (by rw [length_map]; omega), getElem_map,
        getD_eq_getElem evals.reverse _ (by omega)]
      ring
  · intro l j hl hj
    rw [length_map, htl] at hl
    rw [hqs] at hj
    rw [hLi l hl, hSi l hl]
    exact hcoords l j hl hj
  · intro l hl
    rw [length_map, htl] at hl
    rw [hSi l hl, (hpos l hl).2, getD_eq_getElem (map _ evals.reverse) _ (by rw [length_map]; omega), getElem_map,
      getD_eq_getElem evals.reverse _ (by omega)]

end Opinf
