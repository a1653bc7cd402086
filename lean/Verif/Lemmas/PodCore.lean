import Verif.Lemmas.BestApprox
import Verif.Lemmas.TlsBridge
import Verif.Props.Basis

/-!
# The leading singular vectors approximate best: matrices to lists
-/

namespace Opinf

open List

variable {K : Type}

section field
variable [Field K]

/-- The weights as a matrix. -/
def wM (n : Nat) (W : Option (Weights K)) : Matrix (Fin n) (Fin n) K :=
  match W with
  | none => 1
  | some (.diag w) => Matrix.diagonal (toV n w)
  | some (.full A) => toM n n A.rows

theorem toV_wvec {n : Nat} {W : Option (Weights K)} (hW : weightsFit W n) {x : List K} (hx : x.length = n) :
    toV n (wvec W x) = (wM n W).mulVec (toV n x) := by
  rcases W with _ | (w | A)
  · simp [wvec, wM]
  · have hw : w.length = n := hW
    simp only [wvec, wM]
    rw [toV_zipWith_mul n w x hw hx]
    funext i
    rw [Matrix.mulVec_diagonal]
  · obtain ⟨h1, h2, h3, h4⟩ := hW
    exact toV_matVec n n A.rows x (by rw [h3, h1]) (fun a ha => by rw [h4 a ha, h2]) hx

theorem dot_toV (n : Nat) (a b : List K) (ha : a.length = n) (hb : b.length = n) :
    dot a b = toV n a ⬝ᵥ toV n b := dot_fin n a b ha hb

theorem toM_row (k n : Nat) (A : List (List K)) (i : Fin k) : toM k n A i = toV n (A.getD i []) := rfl

theorem getD_mem_len {n k : Nat} {A : List (List K)} (hA : A.length = k) (h : ∀ a ∈ A, a.length = n) (i : Fin k) :
    (A.getD i []).length = n := by
  rw [getD_eq_getElem A _ (hA ▸ i.2)]
  exact h _ (getElem_mem _)

/-- The matrix `A W Bᵀ` of inner products. -/
theorem gram_apply {n k m : Nat} {W : Option (Weights K)} (hW : weightsFit W n) (A B : List (List K))
    (hA : A.length = k) (hAr : ∀ a ∈ A, a.length = n) (hB : B.length = m) (hBr : ∀ b ∈ B, b.length = n)
    (i : Fin k) (j : Fin m) :
    (toM k n A * wM n W * (toM m n B).transpose) i j = dot (A.getD i []) (wvec W (B.getD j [])) := by
  have h1 := getD_mem_len hA hAr i
  have h2 := getD_mem_len hB hBr j
  rw [dot_toV n _ _ h1 (length_wvec hW h2), toV_wvec hW h2, ← toM_row, ← toM_row, Matrix.mul_assoc, Matrix.mul_apply]
  rfl

theorem toM_zipWith_sub {k m n : Nat} (qs cs us : List (List K)) (hq : qs.length = k) (hqr : ∀ q ∈ qs, q.length = n)
    (hc : cs.length = k) (hcr : ∀ c ∈ cs, c.length = m) (hu : us.length = m) (hur : ∀ u ∈ us, u.length = n) :
    toM k n (zipWith (fun q c => vsub q (vecMat n c us)) qs cs) = toM k n qs - toM k m cs * toM m n us := by
  rw [← toM_matMul k m n cs us hc hcr hu hur]
  ext i j
  have hi : (i : Nat) < qs.length := hq ▸ i.2
  have hi' : (i : Nat) < cs.length := hc ▸ i.2
  rw [Matrix.sub_apply, toM_apply, toM_apply, toM_apply, matMul, getD_eq_getElem (zipWith _ _ _) _ (by simp [hi, hi']),
    getElem_zipWith, getD_eq_getElem qs _ hi, getD_eq_getElem (cs.map _) _ (by simpa using hi'), getElem_map]
  have h1 : (qs[(i : Nat)]).length = n := hqr _ (getElem_mem _)
  have h2 : (vecMat n cs[(i : Nat)] us).length = n := length_vecMat _ _ _ hur
  rw [vsub, getD_eq_getElem (zipWith _ _ _) _ (by simp [h1, h2]), getElem_zipWith, getD_eq_getElem (qs[(i : Nat)]) _ (by omega),
    getD_eq_getElem (vecMat _ _ _) _ (by omega)]

theorem sum_map_fin (k : Nat) (f : List K → K) (A : List (List K)) (hA : A.length = k) :
    (A.map f).sum = ∑ i : Fin k, f (A.getD i []) := by
  subst hA
  rw [← Fin.sum_univ_getElem]
  have hl : (A.map f).length = A.length := length_map _
  rw [← Fin.sum_congr' _ hl.symm]
  refine Finset.sum_congr rfl fun i _ => ?_
  simp only [Fin.val_cast, getElem_map, getD_eq_getElem A _ i.2]

theorem sum_getD_fin (p : Nat) (l : List K) (hl : l.length = p) : l.sum = ∑ i : Fin p, l.getD i 0 := by
  subst hl
  rw [← Fin.sum_univ_getElem]
  exact Finset.sum_congr rfl fun i _ => by rw [getD_eq_getElem l _ i.2]

theorem sum_take_fin (p r : Nat) (l : List K) (hl : l.length = p) :
    (l.take r).sum = ∑ i : Fin p, if (i : Nat) < r then l.getD i 0 else 0 := by
  induction l generalizing p r with
  | nil => subst hl; simp
  | cons a l ih =>
    subst hl
    cases r with
    | zero => simp
    | succ r =>
      rw [take_succ_cons, sum_cons, ih l.length r rfl, length_cons, Fin.sum_univ_succ]
      simp

theorem sum_drop_fin (p r : Nat) (l : List K) (hl : l.length = p) :
    (l.drop r).sum = ∑ i : Fin p, if (i : Nat) < r then 0 else l.getD i 0 := by
  have h1 : l.sum = (l.take r).sum + (l.drop r).sum := by rw [← sum_append, take_append_drop]
  rw [sum_take_fin p r l hl, sum_getD_fin p l hl] at h1
  have h2 : ∑ i : Fin p, l.getD i 0 = (∑ i : Fin p, if (i : Nat) < r then l.getD i 0 else 0) +
      ∑ i : Fin p, if (i : Nat) < r then 0 else l.getD i 0 := by
    rw [← Finset.sum_add_distrib]
    refine Finset.sum_congr rfl fun i _ => ?_
    split <;> simp
  rw [h2] at h1
  exact (add_left_cancel h1).symm

/-- Sum of the squared errors if every `q` is approximated by the combination of the vectors `us` with its
coefficients. -/
def approxError (W : Option (Weights K)) (n : Nat) (us cs qs : List (List K)) : K :=
  ((zipWith (fun q c => vsub q (vecMat n c us)) qs cs).map fun x => dot x (wvec W x)).sum

theorem approxError_trace {n k m : Nat} {W : Option (Weights K)} (hW : weightsFit W n) (us cs qs : List (List K))
    (hq : qs.length = k) (hqr : ∀ q ∈ qs, q.length = n) (hc : cs.length = k) (hcr : ∀ c ∈ cs, c.length = m)
    (hu : us.length = m) (hur : ∀ u ∈ us, u.length = n) :
    approxError W n us cs qs = Matrix.trace ((toM k n qs - toM k m cs * toM m n us) * wM n W *
      (toM k n qs - toM k m cs * toM m n us).transpose) := by
  have hl : (zipWith (fun q c => vsub q (vecMat n c us)) qs cs).length = k := by simp [hq, hc]
  have hr : ∀ x ∈ zipWith (fun q c => vsub q (vecMat n c us)) qs cs, x.length = n := by
    intro x hx
    rw [mem_iff_getElem] at hx
    obtain ⟨i, hi, rfl⟩ := hx
    rw [getElem_zipWith]
    have h1 := hqr _ (getElem_mem (l := qs) (n := i) (by simp at hi; omega))
    simp [h1, length_vecMat n _ us hur]
  rw [approxError, sum_map_fin k _ _ hl, ← toM_zipWith_sub qs cs us hq hqr hc hcr hu hur, Matrix.trace]
  refine Finset.sum_congr rfl fun i _ => ?_
  rw [Matrix.diag_apply, gram_apply hW _ _ hl hr hl hr]

end field

section ordered
variable [Field K] [LinearOrder K] [IsStrictOrderedRing K]

theorem wM_symm {n : Nat} {W : Option (Weights K)} (hW : weightsFit W n) (hp : WeightsPSD W n) :
    (wM n W).transpose = wM n W := by
  ext i j
  have key : ∀ a b : Fin n, wM n W a b = dot (ofFn (Pi.single a 1 : Fin n → K)) (wvec W (ofFn (Pi.single b 1 : Fin n → K))) := by
    intro a b
    rw [dot_toV n _ _ (by simp) (length_wvec hW (by simp)), toV_wvec hW (by simp), toV_ofFn, toV_ofFn]
    simp
  rw [Matrix.transpose_apply, key, key]
  exact hp.symm _ _ (by simp) (by simp)

theorem wM_nonneg {n : Nat} {W : Option (Weights K)} (hW : weightsFit W n) (hp : WeightsPSD W n) (x : Fin n → K) :
    0 ≤ x ⬝ᵥ (wM n W).mulVec x := by
  have := hp.nonneg (ofFn x) (by simp)
  rw [wnorm2, dot_toV n _ _ (by simp) (length_wvec hW (by simp)), toV_wvec hW (by simp), toV_ofFn] at this
  exact this

/-- Vectors `L` that are left singular vectors (in the inner product with weights) of the vectors `qs`; `lam` and `R`
are all eigenvalues and eigenvectors of the matrix of inner products of `qs`. -/
structure PodCore (W : Option (Weights K)) (n : Nat) (qs L : List (List K)) (s lam : List K) (R : List (List K)) :
    Prop where
  fitW : weightsFit W n
  psd : WeightsPSD W n
  qlen : ∀ q ∈ qs, q.length = n
  Llen : ∀ c ∈ L, c.length = n
  Rlen : ∀ c ∈ R, c.length = qs.length
  lamlen : lam.length = R.length
  le : L.length ≤ R.length
  orthL : Orthonormal ⟨n, L⟩ W
  orthR : Orthonormal ⟨qs.length, R⟩ none
  desc : lam.Pairwise (· ≥ ·)
  nonneg : ∀ a ∈ lam, 0 ≤ a
  gram : ∀ i j, i < qs.length → j < qs.length → dot (qs.getD i []) (wvec W (qs.getD j [])) =
    ∑ l : Fin R.length, lam.getD l 0 * ((R.getD l []).getD i 0 * (R.getD l []).getD j 0)
  coords : ∀ l j, l < L.length → j < qs.length →
    dot (L.getD l []) (wvec W (qs.getD j [])) = s.getD l 0 * (R.getD l []).getD j 0
  sq : ∀ l, l < L.length → s.getD l 0 * s.getD l 0 = lam.getD l 0

namespace PodCore

variable {W : Option (Weights K)} {n : Nat} {qs L : List (List K)} {s lam : List K} {R : List (List K)}

theorem gramM (h : PodCore W n qs L s lam R) :
    toM qs.length n qs * wM n W * (toM qs.length n qs).transpose =
      (toM R.length qs.length R).transpose * Matrix.diagonal (toV R.length lam) *
        (toM R.length qs.length R).transpose.transpose := by
  ext i j
  rw [gram_apply h.fitW qs qs rfl h.qlen rfl h.qlen, h.gram i j i.2 j.2, Matrix.mul_apply]
  refine Finset.sum_congr rfl fun l _ => ?_
  rw [Matrix.mul_diagonal]
  simp only [Matrix.transpose_apply, toM_apply, toV]
  ring

theorem orthRM (h : PodCore W n qs L s lam R) :
    (toM R.length qs.length R).transpose.transpose * (toM R.length qs.length R).transpose = 1 := by
  rw [Matrix.transpose_transpose]
  have := gram_apply (W := none) (n := qs.length) trivial R R rfl h.Rlen rfl h.Rlen
  ext i j
  have e := this i j
  simp only [wM, Matrix.mul_one] at e
  rw [e, getD_eq_getElem R _ i.2, getD_eq_getElem R _ j.2, h.orthR i j i.2 j.2, Matrix.one_apply]
  simp only [Fin.ext_iff]

/-- The sum of the squared lengths. -/
theorem total (h : PodCore W n qs L s lam R) : (qs.map (wnorm2 W)).sum = lam.sum := by
  have h1 : (qs.map (wnorm2 W)).sum = Matrix.trace (toM qs.length n qs * wM n W * (toM qs.length n qs).transpose) := by
    rw [sum_map_fin qs.length _ _ rfl, Matrix.trace]
    refine Finset.sum_congr rfl fun i _ => ?_
    rw [Matrix.diag_apply, gram_apply h.fitW qs qs rfl h.qlen rfl h.qlen]
    rfl
  rw [h1, h.gramM, Matrix.trace_mul_comm, ← Matrix.mul_assoc, h.orthRM, Matrix.one_mul, Matrix.trace_diagonal,
    sum_getD_fin R.length lam h.lamlen]
  rfl

/-- **Lower bound**: `r` arbitrary vectors with arbitrary coefficients. -/
theorem lower (h : PodCore W n qs L s lam R) (us cs : List (List K)) (hu : ∀ u ∈ us, u.length = n)
    (hc : cs.length = qs.length) (hcr : ∀ c ∈ cs, c.length = us.length) (r : Nat) (hr : us.length ≤ r) :
    (lam.drop r).sum ≤ approxError W n us cs qs := by
  have hdrop : (lam.drop r).sum ≤ (lam.drop us.length).sum := by
    obtain ⟨d, rfl⟩ := Nat.exists_eq_add_of_le hr
    have e : (lam.drop us.length).sum = ((lam.drop us.length).take d).sum + (lam.drop (us.length + d)).sum := by
      rw [← drop_drop, ← sum_append, take_append_drop]
    have hn : 0 ≤ ((lam.drop us.length).take d).sum :=
      sum_nonneg fun a ha => h.nonneg a (mem_of_mem_drop (mem_of_mem_take ha))
    linarith
  refine le_trans hdrop ?_
  rw [approxError_trace h.fitW us cs qs rfl h.qlen hc hcr rfl hu, sum_drop_fin R.length _ lam h.lamlen]
  have hmono : ∀ i j : Fin R.length, i ≤ j → toV R.length lam j ≤ toV R.length lam i := by
    intro i j hij
    rcases eq_or_lt_of_le hij with rfl | hlt
    · exact le_rfl
    · simp only [toV]
      rw [getD_eq_getElem lam _ (by rw [h.lamlen]; exact j.2), getD_eq_getElem lam _ (by rw [h.lamlen]; exact i.2)]
      exact pairwise_iff_getElem.mp h.desc i j _ _ hlt
  have hn : ∀ i : Fin R.length, 0 ≤ toV R.length lam i := by
    intro i
    simp only [toV]
    rw [getD_eq_getElem lam _ (by rw [h.lamlen]; exact i.2)]
    exact h.nonneg _ (getElem_mem _)
  exact approx_lower us.length (wM n W) (wM_nonneg h.fitW h.psd) (toM qs.length n qs)
    (toM R.length qs.length R).transpose (toV R.length lam) h.orthRM h.gramM hmono hn (toM qs.length us.length cs)
    (toM us.length n us)

/-- **Attained**: the first `r` vectors with the coordinates of the projection. -/
theorem attained (h : PodCore W n qs L s lam R) (r : Nat) (hr : r ≤ L.length) :
    approxError W n (L.take r) (qs.map fun q => matVec (L.take r) (wvec W q)) qs = (lam.drop r).sum := by
  have hVl : (L.take r).length = r := by simp [hr]
  have hVr : ∀ v ∈ L.take r, v.length = n := fun v hv => h.Llen v (mem_of_mem_take hv)
  have hcr : ∀ c ∈ qs.map (fun q => matVec (L.take r) (wvec W q)), c.length = r := by
    intro c hc
    rw [mem_map] at hc
    obtain ⟨q, _, rfl⟩ := hc
    simp [matVec, hr]
  rw [approxError_trace h.fitW _ _ qs rfl h.qlen (by simp) hcr hVl hVr]
  set A := toM qs.length n qs with hA
  set V := toM r n (L.take r) with hV
  have hget : ∀ l : Fin r, (L.take r).getD l [] = L.getD l [] := by
    intro l
    rw [getD_eq_getElem?_getD, getD_eq_getElem?_getD, getElem?_take_of_lt l.2]
  have hVV : V * wM n W * V.transpose = 1 := by
    ext i j
    have hi : (i : Nat) < L.length := by omega
    have hj : (j : Nat) < L.length := by omega
    rw [gram_apply h.fitW _ _ hVl hVr hVl hVr, hget, hget, getD_eq_getElem L _ hi, getD_eq_getElem L _ hj,
      h.orthL i j hi hj, Matrix.one_apply]
    simp only [Fin.ext_iff]
  have hB : ∀ (i : Fin qs.length) (l : Fin r), (A * wM n W * V.transpose) i l = s.getD l 0 * (R.getD l []).getD i 0 := by
    intro i l
    have hl : (l : Nat) < L.length := by omega
    rw [gram_apply h.fitW _ _ rfl h.qlen hVl hVr, hget, h.psd.symm _ _ (getD_mem_len rfl h.qlen i)
      (by rw [getD_eq_getElem L _ hl]; exact h.Llen _ (getElem_mem _)), h.coords l i hl i.2]
  have hC : toM qs.length r (qs.map fun q => matVec (L.take r) (wvec W q)) = A * wM n W * V.transpose := by
    ext i l
    have hl : (l : Nat) < L.length := by omega
    have hi : (i : Nat) < qs.length := i.2
    rw [gram_apply h.fitW _ _ rfl h.qlen hVl hVr, hget, h.psd.symm _ _ (getD_mem_len rfl h.qlen i)
      (by rw [getD_eq_getElem L _ hl]; exact h.Llen _ (getElem_mem _)), toM_apply,
      getD_eq_getElem (qs.map _) _ (by simpa using hi), getElem_map, matVec,
      getD_eq_getElem (map _ (take r L)) _ (by rw [length_map, hVl]; exact l.2), getElem_map, getElem_take,
      getD_eq_getElem L _ hl, getD_eq_getElem qs _ hi]
  rw [hC, proj_error (wM n W) (wM_symm h.fitW h.psd) A V hVV, h.gramM, Matrix.trace_mul_comm, ← Matrix.mul_assoc,
    h.orthRM, Matrix.one_mul, Matrix.trace_diagonal]
  have hf : frob (A * wM n W * V.transpose) = (lam.take r).sum := by
    have hrR : r ≤ R.length := le_trans hr h.le
    have e1 : ∀ l : Fin r, ∑ i : Fin qs.length, ((A * wM n W * V.transpose) i l) ^ 2 = lam.getD l 0 := by
      intro l
      have hlR : (l : Nat) < R.length := by omega
      have ho := h.orthR l l hlR hlR
      simp only [wvec, if_true] at ho
      rw [dot_fin qs.length _ _ (h.Rlen _ (getElem_mem _)) (h.Rlen _ (getElem_mem _))] at ho
      have : ∀ i : Fin qs.length, ((A * wM n W * V.transpose) i l) ^ 2 =
          lam.getD l 0 * ((R[(l : Nat)]).getD i 0 * (R[(l : Nat)]).getD i 0) := by
        intro i
        rw [hB, ← h.sq l (by omega), getD_eq_getElem R _ hlR]
        ring
      rw [Finset.sum_congr rfl fun i _ => this i, ← Finset.mul_sum, ho, mul_one]
    rw [frob, Finset.sum_comm, Finset.sum_congr rfl fun l _ => e1 l,
      sum_getD_fin r (lam.take r) (by rw [length_take, h.lamlen]; omega)]
    refine Finset.sum_congr rfl fun l _ => ?_
    rw [getD_eq_getElem?_getD, getD_eq_getElem?_getD, getElem?_take_of_lt l.2]
  rw [hf]
  have e3 : lam.sum = (lam.take r).sum + (lam.drop r).sum := by rw [← sum_append, take_append_drop]
  have e4 : ∑ i, toV R.length lam i = lam.sum := (sum_getD_fin R.length lam h.lamlen).symm
  rw [e4, e3]
  ring

end PodCore

end ordered

end Opinf
