import Verif.Props.PodCriteria
import Verif.Props.PodFunction
import Verif.Props.ProjectionError

/-!
# C122: a POD basis made from a given singular value decomposition

Specification: the matrix `Q` with entries `Σₖ V[i,k] s[k] W[j,k]`.
-/

namespace Opinf

open List

variable {K : Type} [Field K] [LinearOrder K] [IsStrictOrderedRing K]

/-- The entry `(i, j)` of `V diag(s) Wᵀ`. -/
def svdEntry (V : Cols K) (s : List K) (W : Cols K) (i j : Nat) : K :=
  ((range s.length).map fun k => (V.cols.getD k []).getD i 0 * s.getD k 0 * (W.cols.getD k []).getD j 0).sum

omit [IsStrictOrderedRing K] in
theorem normalize_sorted {vals w : List K} (h : normalizeVals vals = .ok w) :
    ∃ top ∈ vals, (∀ x ∈ vals, x ≤ top) ∧ top ≠ 0 ∧ w.map (· * top) = vals.insertionSort (· ≥ ·) := by
  have hperm := perm_insertionSort (· ≥ ·) vals
  have hsort : (vals.insertionSort (· ≥ ·)).Pairwise (· ≥ ·) := pairwise_insertionSort (· ≥ ·) vals
  unfold normalizeVals at h
  generalize vals.insertionSort (· ≥ ·) = l at h hperm hsort ⊢
  cases l with
  | nil => cases h
  | cons a rest =>
    simp only at h
    split at h
    · cases h
    rename_i ha
    cases h
    refine ⟨a, hperm.mem_iff.1 mem_cons_self, fun x hx => ?_, ha, ?_⟩
    · rcases mem_cons.1 (hperm.mem_iff.2 hx) with rfl | hx
      · exact le_refl _
      · exact rel_of_pairwise_cons hsort hx
    · rw [map_map]
      conv_rhs => rw [← map_id (a :: rest)]
      refine map_congr_left fun x _ => ?_
      simp only [Function.comp_apply, id]
      exact div_mul_cancel₀ x ha

/-- **C122** (when the pairing is kept). `from_svd(V, s, W)` stores the vectors as given; the stored singular values,
multiplied with the largest one, are the given ones in their given order exactly if those are in decreasing order. -/
theorem C122_pairing_iff (sqrt : K → K) (left : Cols K) (vals : List K) (right : Option (Cols K)) (a : CritArgs K)
    (mw : Option Int) (W : WArg K) (name : Option String) (s : Pod K)
    (h : Pod.fromSvd sqrt left vals right a mw W name = .ok s) :
    ∃ w top, s.svd = some ⟨left, w, right⟩ ∧ top ∈ vals ∧ (∀ x ∈ vals, x ≤ top) ∧ top ≠ 0 ∧
      (w.map (· * top) = vals ↔ vals.Pairwise (· ≥ ·)) := by
  obtain ⟨-, -, w, hw, hs⟩ := C43_from_svd sqrt left vals right a mw W name s h
  obtain ⟨top, t1, t2, t3, t4⟩ := normalize_sorted hw
  refine ⟨w, top, hs, t1, t2, t3, fun e => ?_, fun hp => ?_⟩
  · rw [← e, t4]
    exact pairwise_insertionSort (· ≥ ·) vals
  · rw [t4]
    exact hp.insertionSort_eq

/-- **C122** (`_partial`: for decreasing singular values). The basis still has the decomposition of the given matrix: the
stored triplets multiplied with the largest singular value give the same matrix. What is missing: other orders of the
singular values, see `C122_unsorted`. -/
theorem C122_recovers_partial (sqrt : K → K) (left right : Cols K) (vals : List K) (a : CritArgs K)
    (mw : Option Int) (W : WArg K) (name : Option String) (s : Pod K)
    (h : Pod.fromSvd sqrt left vals (some right) a mw W name = .ok s) (hd : vals.Pairwise (· ≥ ·)) :
    ∃ w top, s.svd = some ⟨left, w, some right⟩ ∧ top ∈ vals ∧ (∀ x ∈ vals, x ≤ top) ∧
      ∀ i j, svdEntry left w right i j * top = svdEntry left vals right i j := by
  obtain ⟨w, top, h1, h2, h3, -, h5⟩ := C122_pairing_iff sqrt left vals (some right) a mw W name s h
  refine ⟨w, top, h1, h2, h3, fun i j => ?_⟩
  have e := h5.2 hd
  have hl : vals.length = w.length := by rw [← e, length_map]
  rw [svdEntry, svdEntry, hl, ← List.sum_map_mul_right]
  refine congrArg List.sum (map_congr_left fun k hk => ?_)
  have hk : k < w.length := mem_range.1 hk
  have : vals.getD k 0 = w.getD k 0 * top := by
    rw [← e, Opinf.getD_eq_getElem _ _ (by simpa using hk), Opinf.getD_eq_getElem _ _ hk, getElem_map]
  rw [this]
  ring

/-- **C122** (false of the code). For every tolerance between 0 and 1 there are matrices `Q = V diag(s) Wᵀ` with orthonormal
vectors and positive singular values such that `from_svd(V, s, W, residual_energy=tol)` succeeds with the reported residual
energy below the tolerance, while the basis loses more than the share `1 - tol` of the energy of `Q`. -/
theorem C122_unsorted (ext : PodExt K) (tol : K) (h0 : 0 < tol) (h1 : tol < 1) :
    ∃ (V W : Cols K) (vals : List K) (s : Pod K) (Q P D : Snap K),
      basisGram V none = .ok [[1, 0], [0, 1]] ∧ basisGram W none = .ok [[1, 0], [0, 1]] ∧ (∀ x ∈ vals, 0 < x) ∧
      Q = .mat 2 ((range 2).map fun i => (range 2).map fun j => svdEntry V vals W i j) ∧
      Pod.fromSvd ext.sqrt V vals (some W) ⟨none, none, none, some tol, none⟩ none .none none = .ok s ∧
      (∀ e ∈ s.res, e < tol) ∧ s.res.isSome ∧
      (podI ext).project s Q = .ok P ∧ Q.minus P = .ok D ∧ (1 - tol) * Q.energy < D.energy := by
  have hn1 : normalizeVals [tol, 1] = .ok [1, tol] := by
    have : [tol, 1].insertionSort (· ≥ ·) = [1, tol] := by
      simp [insertionSort, orderedInsert, not_le.2 h1]
    rw [normalizeVals, this]
    simp
  have hsq : 0 < 1 + tol ^ 2 := by positivity
  have hen : energySum [1, tol] = 1 + tol ^ 2 := by simp [energySum]
  have he0 : energySum ([1] : List K) = 1 := by simp [energySum]
  have hlt : 1 - 1 / (1 + tol ^ 2) < tol := by
    rw [sub_lt_iff_lt_add, ← sub_lt_iff_lt_add', lt_div_iff₀ hsq]
    nlinarith [mul_pos h0 (sub_pos.2 h1), pow_pos h0 3]
  have hdim : (Crit.resE tol).dim ext.sqrt [1, tol] = 1 := by
    have he : energies [1, tol] = [1 / (1 + tol ^ 2), 1] := by
      simp only [energies, length_cons, length_nil, range_succ, range_zero, nil_append, cons_append, map_cons, map_nil,
        Nat.reduceAdd, take_succ_cons, take_zero, hen]
      rw [div_self (ne_of_gt hsq)]
      simp [energySum]
    rw [Crit.dim, he]
    simp [countIf, not_le.2 h0, not_le.2 (by simpa using hlt)]
  have hf : Pod.fromSvd ext.sqrt ⟨2, [[1, 0], [0, 1]]⟩ [tol, 1] (some ⟨2, [[1, 0], [0, 1]]⟩)
      ⟨none, none, none, some tol, none⟩ none .none none = .ok
      ⟨⟨none, some 2, some 1, some ⟨2, [[1, 0]]⟩, none⟩, .resE tol, none, false, false, false,
        some ⟨⟨2, [[1, 0], [0, 1]]⟩, [1, tol], some ⟨2, [[1, 0], [0, 1]]⟩⟩, some (1 / (1 + tol ^ 2)),
        some (1 - 1 / (1 + tol ^ 2))⟩ := by
    simp [Pod.fromSvd, CritArgs.provided, Pod.make, CritArgs.pick, WArg.toWeights, Pod.storeSvd, hn1, Pod.setFromCrit, hdim,
      Pod.setR, bind, Except.bind, pure, Except.pure, takeInt, he0, hen, LinB.init, orthWarn, basisGram, Cols.upTo, weightCol,
      applyWeights, mapM_cons, mapM_nil, dot, eye, Except.map]
  refine ⟨⟨2, [[1, 0], [0, 1]]⟩, ⟨2, [[1, 0], [0, 1]]⟩, [tol, 1], _, .mat 2 [[tol, 0], [0, 1]], .mat 2 [[tol, 0], [0, 0]],
    .mat 2 [[0, 0], [0, 1]], ?_, ?_, ?_, ?_, hf, ?_, rfl, ?_, ?_, ?_⟩
  · simp [basisGram, weightCol, applyWeights, mapM_cons, mapM_nil, dot, bind, Except.bind, pure, Except.pure]
  · simp [basisGram, weightCol, applyWeights, mapM_cons, mapM_nil, dot, bind, Except.bind, pure, Except.pure]
  · simp [h0]
  · simp [svdEntry, range_succ]
  · intro e he
    cases he
    exact hlt
  · simp [BasI.project, podI, LinB.compress, LinB.decompress, LinB.need, applyWeights, LinB.rowsAt, matSnap, Snap.len, bind,
      Except.bind, matMul, transpose, dot, range_succ, vecMat, vadd, vsmul, matVec, col]
  · simp [Snap.minus, vsub]
  · simp only [Snap.energy, map_cons, map_nil, sum_cons, sum_nil]
    nlinarith [mul_pos h0 (sub_pos.2 h1), pow_pos h0 3]

/-! ### Examples -/

-- decreasing singular values: the hypotheses of `C122_recovers_partial` hold, and the matrix is recovered
example : ∃ s, Pod.fromSvd (K := ℚ) id ⟨2, [[1, 0], [0, 1]]⟩ [4, 2] (some ⟨2, [[0, 1], [1, 0]]⟩)
      ⟨none, none, none, none, none⟩ none .none none = .ok s ∧
    s.svd = some ⟨⟨2, [[1, 0], [0, 1]]⟩, [1, 1/2], some ⟨2, [[0, 1], [1, 0]]⟩⟩ ∧
    svdEntry ⟨2, [[1, 0], [0, 1]]⟩ [(1 : ℚ), 1/2] ⟨2, [[0, 1], [1, 0]]⟩ 1 0 * 4 = 2 ∧
    svdEntry ⟨2, [[1, 0], [0, 1]]⟩ [(4 : ℚ), 2] ⟨2, [[0, 1], [1, 0]]⟩ 1 0 = 2 :=
  ⟨_, rfl, by decide +kernel, by decide +kernel, by decide +kernel⟩

-- increasing singular values: the stored triplets are those of another matrix
example : ∃ s, Pod.fromSvd (K := ℚ) id ⟨2, [[1, 0], [0, 1]]⟩ [2, 4] (some ⟨2, [[0, 1], [1, 0]]⟩)
      ⟨none, none, none, none, none⟩ none .none none = .ok s ∧
    s.svd = some ⟨⟨2, [[1, 0], [0, 1]]⟩, [1, 1/2], some ⟨2, [[0, 1], [1, 0]]⟩⟩ ∧
    svdEntry ⟨2, [[1, 0], [0, 1]]⟩ [(1 : ℚ), 1/2] ⟨2, [[0, 1], [1, 0]]⟩ 1 0 * 4 = 2 ∧
    svdEntry ⟨2, [[1, 0], [0, 1]]⟩ [(2 : ℚ), 4] ⟨2, [[0, 1], [1, 0]]⟩ 1 0 = 4 :=
  ⟨_, rfl, by decide +kernel, by decide +kernel, by decide +kernel⟩

end Opinf
