import Verif.Lemmas.ParamResidual

/-!
# Parametric models: other entries for the learned operators
-/

namespace Opinf

open List

variable {K S : Type}

/-- The operator (of a list of operators) after other entries have been chosen: a known operator is kept; an
operator to infer gets, through `set_entries`, some `r × d` matrix, where the operator may have any
interpolator class that interpolates. -/
def PSlot.Reset [AddMonoid K] [LinearOrder K] (lib : ItpLib K) (ps : List (Par K)) (r m : Nat)
    (s s' : PSlot K) : Prop :=
  s'.infer = s.infer ∧ (s.infer = false → s' = s) ∧
  (s.infer = true → ∃ o B, s.op.SameBut o ∧ o.Learnable lib ps ∧ B.WF ∧ B.nrows = r ∧
    B.ncols = s.op.dim ps.length r m ∧ o.setBlock lib B = (s'.op, .ok ()))

/-- The rows of the matrix whose column blocks are the entries of the operators to infer, in order. -/
def learnedRows (r : Nat) (slots : List (PSlot K)) : List (List K) :=
  (range r).map fun i => (slots.filter PSlot.infer).flatMap fun s => s.op.entryRow i

variable [Field K] [LinearOrder K]

theorem PSlot.Reset.trans {lib : ItpLib K} {ps : List (Par K)} {r m : Nat} {s s' s'' : PSlot K}
    (h : s.Reset lib ps r m s') (h' : s'.Reset lib ps r m s'') : s.Reset lib ps r m s'' := by
  obtain ⟨a1, a2, a3⟩ := h
  obtain ⟨b1, b2, b3⟩ := h'
  refine ⟨b1.trans a1, fun hf => by rw [b2 (a1.trans hf), a2 hf], fun ht => ?_⟩
  obtain ⟨o, B, c1, -, -, -, -, c6⟩ := a3 ht
  obtain ⟨o', B', d1, d2, d3, d4, d5, d6⟩ := b3 (a1.trans ht)
  have hs := c1.trans (POp.setBlock_sameBut lib o s'.op B c6)
  exact ⟨o', B', hs.trans d1, d2, d3, d4, by rw [d5, hs.dim], d6⟩

theorem PSlot.Reset.again {lib : ItpLib K} {ps : List (Par K)} {r m : Nat} {s s' : PSlot K}
    (h : s.Reset lib ps r m s') : s'.Reset lib ps r m s' := by
  obtain ⟨a1, a2, a3⟩ := h
  refine ⟨rfl, fun _ => rfl, fun ht => ?_⟩
  obtain ⟨o, B, c1, c2, c3, c4, c5, c6⟩ := a3 (a1.symm.trans ht)
  have hs := POp.setBlock_sameBut lib o s'.op B c6
  exact ⟨o, B, hs.symm, c2, c3, c4, by rw [c5, (c1.trans hs).dim], c6⟩

/-- What `_extract_operators` does to the operators. -/
theorem pExtract_reset (lib : ItpLib K) (ps : List (Par K)) (r m : Nat) (hr : 0 < r) (O : Mat K) (hO : O.WF)
    (hOr : O.nrows = r) (slots slots' : List (PSlot K)) (index : Nat)
    (hl : ∀ s ∈ slots, s.infer = true → s.op.Learnable lib ps ∧ s.op.Expects ps.length)
    (hd : index + pInferDim ps.length r m slots = O.ncols)
    (h : pExtract lib ps.length r m O index slots = (slots', .ok ())) :
    Forall₂ (PSlot.Reset lib ps r m) slots slots' ∧
    ∀ i, i < r → ((slots'.filter PSlot.infer).flatMap fun s => s.op.entryRow i)
      = (O.rows.getD i []).drop index := by
  have hrowlen : ∀ i, i < r → (O.rows.getD i []).length = O.ncols := by
    intro i hi
    have hir : i < O.rows.length := by rw [hO.1, hOr]; exact hi
    rw [getD_eq_getElem _ _ hir]
    exact hO.2 _ (getElem_mem _)
  induction slots generalizing slots' index with
  | nil =>
    simp only [pExtract, Prod.mk.injEq, and_true] at h
    subst h
    refine ⟨.nil, fun i hi => ?_⟩
    rw [drop_eq_nil_of_le (by rw [hrowlen i hi, ← hd]; exact le_refl _)]
    rfl
  | cons s ss ih =>
    rw [pExtract] at h
    have hl' := fun s' h' => hl s' (mem_cons_of_mem _ h')
    cases hs : s.infer with
    | false =>
      rw [if_neg (by simp [hs])] at h
      simp only [Prod.mk.injEq] at h
      have hd' : index + pInferDim ps.length r m ss = O.ncols := by
        rw [pInferDim, filter_cons_of_neg (by simp [hs])] at hd; exact hd
      obtain ⟨h1, h2⟩ := ih (pExtract lib ps.length r m O index ss).1 index hl' hd' (Prod.ext rfl h.2)
      rw [← h.1]
      refine ⟨.cons ⟨rfl, fun _ => rfl, fun ht => by rw [hs] at ht; cases ht⟩ h1, ?_⟩
      intro i hi
      rw [filter_cons_of_neg (by simp [hs])]
      exact h2 i hi
    | true =>
      rw [if_pos hs] at h
      have hdim : pInferDim ps.length r m (s :: ss)
          = s.op.dim ps.length r m + pInferDim ps.length r m ss := by
        rw [pInferDim, filter_cons_of_pos (by simp [hs]), map_cons, sum_cons]; rfl
      rw [hdim] at hd
      simp only at h
      rcases hset : s.op.setBlock lib (O.colSlice index (index + s.op.dim ps.length r m)) with ⟨o, x⟩
      rw [hset] at h
      cases x with
      | error e => simp at h
      | ok u =>
        simp only [Prod.mk.injEq] at h
        obtain ⟨h1, h2⟩ := ih (pExtract lib ps.length r m O (index + s.op.dim ps.length r m) ss).1
          (index + s.op.dim ps.length r m) hl' (by omega) (Prod.ext rfl h.2)
        obtain ⟨l1, l2⟩ := hl s mem_cons_self hs
        have hErows : (O.colSlice index (index + s.op.dim ps.length r m)).rows
            = O.rows.map fun row => (row.drop index).take (s.op.dim ps.length r m) := by
          simp [Mat.colSlice]
        have hBWF : (O.colSlice index (index + s.op.dim ps.length r m)).WF := by
          refine ⟨by simpa [Mat.colSlice] using hO.1, ?_⟩
          intro row hrow
          rw [hErows] at hrow
          obtain ⟨row', hrow', rfl⟩ := mem_map.mp hrow
          rw [length_take, length_drop, hO.2 row' hrow']
          simp only [Mat.colSlice]
          omega
        have hBc : (O.colSlice index (index + s.op.dim ps.length r m)).ncols = s.op.dim ps.length r m := by
          simp only [Mat.colSlice]; omega
        rw [← h.1]
        refine ⟨.cons ⟨rfl, fun hf => (by rw [hs] at hf; cases hf), fun _ =>
          ⟨s.op, _, .refl _, l1, hBWF, hOr, hBc, hset⟩⟩ h1, ?_⟩
        intro i hi
        have hir : i < O.rows.length := by rw [hO.1, hOr]; exact hi
        rw [filter_cons_of_pos (by simp [hs]), flatMap_cons, h2 i hi,
          POp.setBlock_rows lib ps.length r m hr s.op o l2 _ hBWF hOr hBc hset i hi, hErows,
          getD_eq_getElem _ _ (by rw [length_map]; exact hir), getElem_map, getD_eq_getElem _ _ hir,
          ← drop_drop, take_append_drop]

/-- What operators with other entries do on the training samples. -/
theorem reset_spec (lib : ItpLib K) (ps : List (Par K)) (r m : Nat) (hr : 0 < r)
    (smp : List (Par K × List K × Option (List K))) (slots slots' : List (PSlot K))
    (bs : List (List (List K)))
    (hb : Forall₂ (fun s cols => s.op.Learnable lib ps ∧ s.op.Expects ps.length ∧
      ∀ o2, s.op.SameBut o2 → o2.Learnable lib ps → POp.LearnsWith lib r m ps.length ps smp o2 cols)
      (slots.filter PSlot.infer) bs)
    (h : Forall₂ (PSlot.Reset lib ps r m) slots slots') :
    Forall₂ (PSlotStep lib ps r m) slots slots' ∧
    (∀ i, i < r → ((slots'.filter PSlot.infer).flatMap fun s => s.op.entryRow i).length
      = pInferDim ps.length r m slots) ∧
    ∀ (j : Nat) y, smp[j]? = some y → ∀ i, i < r →
      ((slots'.filter PSlot.infer).map fun s => (s.op.val lib y.1 y.2.1 y.2.2).getD i 0).sum
        = dot ((slots'.filter PSlot.infer).flatMap fun s => s.op.entryRow i)
            (bs.flatMap fun b => b.getD j []) := by
  induction h generalizing bs with
  | nil =>
    simp only [filter_nil] at hb
    cases hb
    exact ⟨.nil, fun i _ => rfl, fun j y _ i _ => by simp⟩
  | @cons s s' ss ss' hss _ ih =>
    obtain ⟨a1, a2, a3⟩ := hss
    cases hs : s.infer with
    | false =>
      rw [filter_cons_of_neg (by simp [hs])] at hb
      obtain ⟨h1, h2, h3⟩ := ih bs hb
      have hs' : s'.infer = false := a1.trans hs
      have he := a2 hs
      refine ⟨.cons ⟨a1, by rw [he], fun _ => he, fun ht => by rw [hs] at ht; cases ht⟩ h1, ?_, ?_⟩
      · intro i hi
        rw [filter_cons_of_neg (by simp [hs']), pInferDim, filter_cons_of_neg (by simp [hs])]
        exact h2 i hi
      · intro j y hy i hi
        rw [filter_cons_of_neg (by simp [hs'])]
        exact h3 j y hy i hi
    | true =>
      rw [filter_cons_of_pos (by simp [hs])] at hb
      have hs' : s'.infer = true := a1.trans hs
      have hdim : pInferDim ps.length r m (s :: ss)
          = s.op.dim ps.length r m + pInferDim ps.length r m ss := by
        rw [pInferDim, filter_cons_of_pos (by simp [hs]), map_cons, sum_cons]; rfl
      cases hb with
      | @cons _ cols _ bs hL hb =>
      obtain ⟨h1, h2, h3⟩ := ih bs hb
      obtain ⟨hL1, hL2, hL3⟩ := hL
      obtain ⟨o, B, c1, c2, c3, c4, c5, c6⟩ := a3 hs
      obtain ⟨l1, l2, l3⟩ := hL3 o c1 c2
      have c5' : B.ncols = o.dim ps.length r m := by rw [c5, c1.dim]
      obtain ⟨k1, k2, k3⟩ := l3 B s'.op c3 c4 c5' c6
      have hrows := fun i hi => POp.setBlock_rows lib ps.length r m hr o s'.op (c1.expects hL2) B c3 c4 c5' c6 i hi
      have hBl : ∀ i, i < r → (B.rows.getD i []).length = s.op.dim ps.length r m := by
        intro i hi
        have hir : i < B.rows.length := by rw [c3.1, c4]; exact hi
        rw [getD_eq_getElem _ _ hir, c3.2 _ (getElem_mem _), c5]
      refine ⟨.cons ⟨a1, k1.trans c1.kind, fun hf => (by rw [hs] at hf; cases hf), fun _ => k2⟩ h1, ?_, ?_⟩
      · intro i hi
        rw [filter_cons_of_pos (by simp [hs']), flatMap_cons, length_append, h2 i hi, hrows i hi, hdim,
          hBl i hi]
      · intro j y hy i hi
        rw [filter_cons_of_pos (by simp [hs']), map_cons, sum_cons, flatMap_cons, flatMap_cons, h3 j y hy i hi,
          hrows i hi]
        have hj : j < cols.length := by
          rw [l1]; exact (List.getElem?_eq_some_iff.mp hy).1
        rw [k3 j y _ hy (getElem?_eq_getElem hj), getD_eq_getElem cols _ hj,
          dot_append _ _ _ _ (by rw [hBl i hi, l2 _ (getElem_mem _), c1.dim])]
        congr 1
        have hir : i < B.rows.length := by rw [c3.1, c4]; exact hi
        rw [matVec, getD_eq_getElem _ _ (by rw [length_map]; exact hir), getElem_map, getD_eq_getElem _ _ hir]

end Opinf
