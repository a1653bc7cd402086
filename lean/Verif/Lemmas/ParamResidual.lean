import Verif.Lemmas.ParamRegression

/-!
# Parametric models: the residual of a model with learned operators
-/

namespace Opinf

open List

variable {K S : Type}

/-- A model whose known operators are those of `M` and whose learned operators act on the training samples
as the matrix `O` acts on the rows of the data matrix. -/
theorem pResidual [Field K] [LinearOrder K] (lib : ItpLib K) (M M' : PModel K S) (ps : List (Par K))
    (states lhs : List (Arg K)) (inputs : Option (List (Arg K))) (r m : Nat)
    (hA : PFitArgs lib M ps states lhs inputs r m) (D : Mat K) (Z : List (List K))
    (bs : List (List (List K)))
    (g10 : D.nrows = (trainSamples M.hasInputs ps states inputs).length)
    (g12 : ∀ j, j < D.nrows → D.rows[j]? = some (bs.flatMap fun b => b.getD j []))
    (g16 : ∀ z ∈ Z, z.length = r)
    (g18 : ∀ y ∈ trainSamples M.hasInputs ps states inputs, y.1 ∈ ps ∧ y.2.1.length = r ∧
        ∀ o ∈ M.ops, InputOK o.kind m y.2.2)
    (g20 : ∀ (j : Nat) y, (trainSamples M.hasInputs ps states inputs)[j]? = some y →
        ∃ l z w, (lhs.flatMap fun L => (atleast2d L).2)[j]? = some l ∧ Z[j]? = some z ∧
          l.length = r ∧ w.length = r ∧ SumAt lib M.known y.1 y.2.1 y.2.2 r w ∧ z = vsub l w ∧
          w = (M.known.map fun o => o.val lib y.1 y.2.1 y.2.2).foldl vadd (replicate r 0))
    (O : Mat K) (hO : O.WF) (hOr : O.nrows = r)
    (hcomb : Forall₂ (fun s s' : PSlot K => s'.infer = s.infer ∧ s'.op.kind = s.op.kind ∧
      (s.infer = false → ∀ mu ∈ ps, ∀ op, s.op.EvalsTo lib mu r m op → s'.op.EvalsTo lib mu r m op) ∧
      (s.infer = true → ∀ mu ∈ ps, ∃ op, s'.op.EvalsTo lib mu r m op)) M.slots M'.slots)
    (e2 : ∀ (j : Nat) y, (trainSamples M.hasInputs ps states inputs)[j]? = some y → ∀ i, i < r →
      ((M'.slots.filter PSlot.infer).map fun s => (s.op.val lib y.1 y.2.1 y.2.2).getD i 0).sum
        = dot (O.rows.getD i []) (bs.flatMap fun b => b.getD j [])) :
    (∀ mu ∈ ps, ∀ o ∈ M'.ops, ∃ op, o.EvalsTo lib mu r m op) ∧
    ∀ (j : Nat) y, (trainSamples M.hasInputs ps states inputs)[j]? = some y →
      ∃ d l z v w, D.rows[j]? = some d ∧ (lhs.flatMap fun L => (atleast2d L).2)[j]? = some l ∧
        Z[j]? = some z ∧ (M'.rhs lib y.1 y.2.1 y.2.2).2 = .ok v ∧
        SumAt lib M.known y.1 y.2.1 y.2.2 r w ∧
        z = vsub l w ∧ v = vadd (matVec O.rows d) w ∧ vsub z (matVec O.rows d) = vsub l v := by
  obtain ⟨slots', hMs⟩ : ∃ l, M'.slots = l := ⟨_, rfl⟩
  rw [hMs] at hcomb e2
  have hev : ∀ mu ∈ ps, ∀ o ∈ M'.ops, ∃ op, o.EvalsTo lib mu r m op := by
    intro mu hmu o ho
    rw [PModel.ops, hMs] at ho
    obtain ⟨t, ht, rfl⟩ := mem_map.mp ho
    obtain ⟨s0, hs0, c1, c2, c3, c4⟩ := forall₂_mem_right hcomb ht
    cases hi : s0.infer with
    | true => exact c4 hi mu hmu
    | false =>
      obtain ⟨op, hop⟩ := hA.known s0 hs0 hi mu hmu
      exact ⟨op, c3 hi mu hmu op hop⟩
  refine ⟨hev, ?_⟩
  intro j y hy
  obtain ⟨hmu, hq, hu⟩ := g18 y (mem_of_getElem? hy)
  obtain ⟨l, z, w, k1, k2, k3, k4, k5, k6, k7⟩ := g20 j y hy
  have hj : j < D.nrows := by rw [g10]; exact (List.getElem?_eq_some_iff.mp hy).1
  have hne : M'.slots ≠ [] := by
    intro h0
    rw [hMs] at h0
    rw [h0] at hcomb
    have hM0 := forall₂_nil_right_iff.mp hcomb
    exact absurd hM0 (hA.slots_ne)
  have hu' : ∀ o ∈ M'.ops, InputOK o.kind m y.2.2 := by
    intro o ho
    rw [PModel.ops, hMs] at ho
    obtain ⟨t, ht, rfl⟩ := mem_map.mp ho
    obtain ⟨s0, hs0, c1, c2, -⟩ := forall₂_mem_right hcomb ht
    rw [c2]
    exact hu s0.op (mem_map.mpr ⟨s0, hs0, rfl⟩)
  obtain ⟨-, -, -, -, -, -, -, -, -, hrhs⟩ := M'.rhs_sum lib y.1 r m hA.r_pos hne (hev y.1 hmu) y.2.1 y.2.2 hq hu'
  set v := (M'.ops.map fun o => o.val lib y.1 y.2.1 y.2.2).foldl vadd (replicate r 0) with hv
  have hvlen : v.length = r := length_sumAt (hev y.1 hmu) y.2.1 y.2.2
  have hOlen : (matVec O.rows (bs.flatMap fun b => b.getD j [])).length = r := by
    rw [length_matVec, hO.1, hOr]
  have hkev : ∀ o ∈ M.known, ∃ op, o.EvalsTo lib y.1 r m op := by
    intro o ho
    obtain ⟨s0, hs0, rfl⟩ := mem_map.mp ho
    obtain ⟨h1, h2⟩ := mem_filter.mp hs0
    exact hA.known s0 h1 (by simpa using h2) y.1 hmu
  -- known operators: the same values
  have hknown : ∀ i, ((slots'.filter fun s => !s.infer).map fun s => (s.op.val lib y.1 y.2.1 y.2.2).getD i 0)
      = M.known.map fun o => (o.val lib y.1 y.2.1 y.2.2).getD i 0 := by
    intro i
    rw [PModel.known, map_map]
    have hmem : ∀ s0 ∈ M.slots, s0.infer = false → ∃ op, s0.op.EvalsTo lib y.1 r m op :=
      fun s0 h0 h1 => hA.known s0 h0 h1 y.1 hmu
    clear * - hcomb hmem hmu
    generalize M.slots = ms at hcomb hmem
    induction hcomb with
    | nil => rfl
    | @cons a b la lb hab _ ih =>
      have ih' := ih fun s0 h0 => hmem s0 (mem_cons_of_mem _ h0)
      obtain ⟨c1, c2, c3, c4⟩ := hab
      cases hi : a.infer with
      | true =>
        rw [filter_cons_of_neg (by simp [c1, hi]), filter_cons_of_neg (by simp [hi])]
        exact ih'
      | false =>
        rw [filter_cons_of_pos (by simp [c1, hi]), filter_cons_of_pos (by simp [hi]), map_cons, map_cons, ih']
        obtain ⟨op, hop⟩ := hmem a mem_cons_self hi
        rw [Function.comp_apply, hop.val_eq, (c3 hi y.1 hmu op hop).val_eq]
  have hvv : v = vadd (matVec O.rows (bs.flatMap fun b => b.getD j [])) w := by
    apply ext_getD_zero (by rw [length_vadd, hvlen, hOlen, k4, Nat.min_self])
    intro i
    rw [getD_vadd _ _ (by rw [hOlen, k4]), hv, getD_sumAt (hev y.1 hmu), k7, getD_sumAt hkev,
      PModel.ops, hMs, map_map]
    by_cases hi : i < r
    · have := e2 j y hy i hi
      rw [sum_filter_split slots' PSlot.infer, ← hknown i]
      congr 1
      rw [show ((fun o : POp K => (o.val lib y.1 y.2.1 y.2.2).getD i 0) ∘ PSlot.op)
        = fun s : PSlot K => (s.op.val lib y.1 y.2.1 y.2.2).getD i 0 from rfl, this]
      have hir : i < O.rows.length := by rw [hO.1, hOr]; exact hi
      rw [getD_eq_getElem O.rows _ hir, matVec, getD_eq_getElem _ _ (by rw [length_map]; exact hir), getElem_map]
    · have h0 : ∀ l : List K, l.length = r → l.getD i 0 = 0 := by
        intro l hl
        rw [getD_eq_getElem?_getD, getElem?_eq_none (by omega)]; rfl
      have z1 := h0 v hvlen
      rw [hv, getD_sumAt (hev y.1 hmu), PModel.ops, hMs, map_map] at z1
      have z2 := h0 w k4
      rw [k7, getD_sumAt hkev] at z2
      rw [z1, z2, h0 _ hOlen, add_zero]
  refine ⟨_, l, z, v, w, g12 j hj, k1, k2, hrhs, k5, k6, hvv, ?_⟩
  have hzl : z.length = r := g16 z (mem_of_getElem? k2)
  apply ext_getD_zero (by rw [length_vsub, length_vsub, hzl, hOlen, k3, hvlen])
  intro i
  rw [getD_vsub _ _ (by rw [hzl, hOlen]), getD_vsub _ _ (by rw [k3, hvlen]), hvv, k6,
    getD_vsub _ _ (by rw [k3, k4]), getD_vadd _ _ (by rw [hOlen, k4])]
  ring

end Opinf
