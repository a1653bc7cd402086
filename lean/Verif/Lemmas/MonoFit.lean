import Verif.Lemmas.Mono

/-!
# Lemmas about fitting a monolithic model
-/

namespace Opinf

open List

variable {K : Type}

/-! ### Entrywise arithmetic -/

theorem getD_vadd [AddZeroClass K] (a b : List K) (h : a.length = b.length) (i : Nat) :
    (vadd a b).getD i 0 = a.getD i 0 + b.getD i 0 := by
  induction a generalizing b i with
  | nil => cases b with
    | nil => simp [vadd]
    | cons _ _ => simp at h
  | cons x a ih => cases b with
    | nil => simp at h
    | cons y b =>
      cases i with
      | zero => simp [vadd]
      | succ i => simpa [vadd] using ih b (by simpa using h) i

theorem getD_vsub [AddGroup K] (a b : List K) (h : a.length = b.length) (i : Nat) :
    (vsub a b).getD i 0 = a.getD i 0 - b.getD i 0 := by
  induction a generalizing b i with
  | nil => cases b with
    | nil => simp [vsub]
    | cons _ _ => simp at h
  | cons x a ih => cases b with
    | nil => simp at h
    | cons y b =>
      cases i with
      | zero => simp [vsub]
      | succ i => simpa [vsub] using ih b (by simpa using h) i

theorem getD_foldl_vadd [AddCommMonoid K] (L : List (List K)) (acc : List K)
    (h : ∀ l ∈ L, l.length = acc.length) (i : Nat) :
    (L.foldl vadd acc).getD i 0 = acc.getD i 0 + (L.map fun l => l.getD i 0).sum := by
  induction L generalizing acc with
  | nil => simp
  | cons l L ih =>
    have hl := h l mem_cons_self
    rw [foldl_cons, ih _ (by
      intro l' hl'
      simp [h l' (mem_cons_of_mem _ hl'), hl]), getD_vadd _ _ hl.symm, map_cons, sum_cons, add_assoc]

theorem getD_eq_getElem {α : Type*} (l : List α) (d : α) {i : Nat} (h : i < l.length) :
    l.getD i d = l[i] := by simp [h]

theorem ext_getD_zero [Zero K] {a b : List K} (hl : a.length = b.length)
    (h : ∀ i, a.getD i 0 = b.getD i 0) : a = b := by
  apply ext_getElem hl
  intro i h1 h2
  have := h i
  rwa [getD_eq_getElem _ _ h1, getD_eq_getElem _ _ h2] at this

theorem getD_rhsVal [CommSemiring K] (ops : List (Op K)) (r m : Nat) (hops : ∀ o ∈ ops, o.Cal r m)
    (q : List K) (u : Option (List K)) (i : Nat) :
    (rhsVal ops r q u).getD i 0 = (ops.map fun o => (o.val q u).getD i 0).sum := by
  rw [rhsVal, getD_foldl_vadd, map_map]
  · have : (replicate r (0 : K)).getD i 0 = 0 := by
      simp only [getD_eq_getElem?_getD, getElem?_replicate]; split <;> rfl
    rw [this, zero_add]; rfl
  · intro l hl
    obtain ⟨o, ho, rfl⟩ := mem_map.mp hl
    rw [(hops o ho).length_val, length_replicate]

/-! ### Known operators -/

theorem Op.val_ignores_input [CommSemiring K] (o : Op K) (h : o.kind.hasInputs = false) (q : List K)
    (u u' : Option (List K)) : o.val q u = o.val q u' := by
  simp only [Op.val]
  split
  · rfl
  · rw [dataCol_ignores_input o.kind h]

theorem Op.Cal.ignores_input {o : Op K} {r m : Nat} (h : o.Cal r m)
    (hi : o.kind.hasInputs = false) (m' : Nat) : o.Cal r m' := by
  obtain ⟨E, hE, hF⟩ := h
  exact ⟨E, hE, fits_ignores_input _ hi _ _ _ _ hF⟩

/-- `op.apply(states, inputs)` in `_process_fit_arguments`. -/
theorem Op.apply_snapshots [CommSemiring K] {o : Op K} {r m : Nat} (h : o.Cal r m)
    (cols U : List (List K)) (inputs : Option (Arg K)) (hc : ∀ q ∈ cols, q.length = r)
    (hl : U.length = cols.length)
    (hu : o.kind.hasInputs = true → inputs = some (.mat m U) ∧ ∀ u ∈ U, u.length = m) :
    o.apply (.mat r cols) inputs
      = .ok (.mat r (zipWith (fun q u => o.val q (some u)) cols U)) := by
  by_cases hi : o.kind.hasInputs = true
  · obtain ⟨rfl, hU⟩ := hu hi
    obtain ⟨E, hE, hF⟩ := h
    simp only [Op.apply, hE, Op.val]
    rw [apply_mat o.kind E r m hF cols U hc hU hl]
    rfl
  · have hi' : o.kind.hasInputs = false := by simpa using hi
    obtain ⟨E, hE, hF⟩ := h.ignores_input hi' 0
    have hbase : o.kind.apply E (.mat r cols) (.mat 0 (U.map fun _ => []))
        = .ok (.mat r (zipWith (fun q u => o.val q (some u)) cols U)) := by
      rw [apply_mat o.kind E r 0 hF cols _ hc (by simp) (by simpa using hl), zipWith_map_right]
      congr 2
      congr 1
      funext q u
      rw [o.val_ignores_input hi' q (some u) (some [])]
      simp [Op.val, hE]
    simp only [Op.apply, hE]
    cases inputs with
    | some a => simp only; rw [apply_ignores_input o.kind hi' E _ a]; exact hbase
    | none =>
      rw [apply_ignores_input o.kind hi' E _ _ (.scalar 0)] at hbase
      rw [← hbase]
      cases hk : o.kind <;> simp_all [OpKind.hasInputs]

/-- The contributions of the known operators to entry `i` at one snapshot. -/
def knownSum [CommSemiring K] (slots : List (Slot K)) (q : List K) (u : Option (List K)) (i : Nat) : K :=
  ((slots.filter fun s => !s.infer).map fun s => (s.op.val q u).getD i 0).sum

/-- The contributions of the operators to infer to entry `i` at one snapshot. -/
def inferSum [CommSemiring K] (slots : List (Slot K)) (q : List K) (u : Option (List K)) (i : Nat) : K :=
  ((slots.filter Slot.infer).map fun s => (s.op.val q u).getD i 0).sum

theorem sum_known_infer [CommSemiring K] (slots : List (Slot K)) (q : List K) (u : Option (List K))
    (i : Nat) : ((slots.map Slot.op).map fun o => (o.val q u).getD i 0).sum
      = knownSum slots q u i + inferSum slots q u i := by
  induction slots with
  | nil => simp [knownSum, inferSum]
  | cons s slots ih =>
    simp only [map_cons, sum_cons]
    rw [ih]
    cases h : s.infer
    · simp only [knownSum, inferSum, filter_cons, h]
      simp [add_assoc]
    · simp only [knownSum, inferSum, filter_cons, h]
      simp only [Bool.not_true, Bool.false_eq_true, if_false, if_true, map_cons, sum_cons]
      exact add_left_comm _ _ _

theorem subKnown_spec [CommRing K] (r m : Nat) (cols U : List (List K)) (inputs : Option (Arg K))
    (hc : ∀ q ∈ cols, q.length = r) (hl : U.length = cols.length) (slots : List (Slot K))
    (hcal : ∀ s ∈ slots, s.infer = false → s.op.Cal r m)
    (hu : ∀ s ∈ slots, s.infer = false → s.op.kind.hasInputs = true →
      inputs = some (.mat m U) ∧ ∀ u ∈ U, u.length = m)
    (lhs : List (List K)) (hlhs : ∀ z ∈ lhs, z.length = r) (hll : lhs.length = cols.length) :
    ∃ Z, subKnown r (.mat r cols) inputs slots lhs = .ok Z ∧ Z.length = cols.length ∧
      (∀ z ∈ Z, z.length = r) ∧
      ∀ j, j < cols.length → ∀ i, (Z.getD j []).getD i 0
        = (lhs.getD j []).getD i 0 - knownSum slots (cols.getD j []) (some (U.getD j [])) i := by
  induction slots generalizing lhs with
  | nil => exact ⟨lhs, rfl, hll, hlhs, by simp [knownSum]⟩
  | cons s slots ih =>
    cases h : s.infer
    · have hs := Op.apply_snapshots (hcal s (by simp) h) cols U inputs hc hl (hu s (by simp) h)
      set Y := zipWith (fun q u => s.op.val q (some u)) cols U with hY
      have hYl : Y.length = cols.length := by simp [hY, hl]
      have hYr : ∀ y ∈ Y, y.length = r := by
        intro y hy
        rw [hY, mem_iff_getElem] at hy
        obtain ⟨j, hj, rfl⟩ := hy
        rw [getElem_zipWith]
        exact (hcal s (by simp) h).length_val _ _
      have hZl : (zipWith vsub lhs Y).length = cols.length := by simp [hll, hYl]
      have hZr : ∀ z ∈ zipWith vsub lhs Y, z.length = r := by
        intro z hz
        rw [mem_iff_getElem] at hz
        obtain ⟨j, hj, rfl⟩ := hz
        rw [getElem_zipWith, length_vsub, hlhs _ (getElem_mem _), hYr _ (getElem_mem _), min_self]
      obtain ⟨Z, h1, h2, h3, h4⟩ := ih (fun s' hs' => hcal s' (by simp [hs']))
        (fun s' hs' => hu s' (by simp [hs'])) (zipWith vsub lhs Y) hZr hZl
      refine ⟨Z, ?_, h2, h3, ?_⟩
      · simp only [subKnown, h, hs, bind, Except.bind, subArr]
        rw [if_neg (by simp)]
        simp only [hYl, hll, and_self, if_true]
        exact h1
      · intro j hj i
        rw [h4 j hj i]
        have e1 : (zipWith vsub lhs Y).getD j []
            = vsub (lhs.getD j []) (s.op.val (cols.getD j []) (some (U.getD j []))) := by
          rw [getD_eq_getElem _ _ (by omega), getElem_zipWith, getD_eq_getElem _ _ (by omega),
            getD_eq_getElem _ _ (by omega), getD_eq_getElem _ _ (by omega)]
          simp [hY]
        rw [e1, getD_vsub]
        · simp only [knownSum, filter_cons, h, Bool.not_false, if_true, map_cons, sum_cons]
          ring
        · rw [(hcal s (by simp) h).length_val, getD_eq_getElem _ _ (by omega), hlhs _ (getElem_mem _)]
    · obtain ⟨Z, h1, h2, h3, h4⟩ := ih (fun s' hs' => hcal s' (by simp [hs']))
        (fun s' hs' => hu s' (by simp [hs'])) lhs hlhs hll
      refine ⟨Z, ?_, h2, h3, ?_⟩
      · simp only [subKnown, h, if_true]; exact h1
      · intro j hj i
        rw [h4 j hj i]
        simp [knownSum, h]

/-! ### The data matrix -/

theorem hstack_map {α : Type*} (P : List α) (fs : List (α → List K)) :
    hstack P.length (fs.map fun f => P.map f) = P.map fun p => fs.flatMap fun f => f p := by
  induction fs with
  | nil => simp [hstack]
  | cons f fs ih =>
    simp only [hstack, map_cons, foldr_cons] at ih ⊢
    rw [ih, zipWith_map]
    simp [zipWith_self]

theorem block_eq [CommSemiring K] (o : OpKind) (cols U : List (List K)) (inputs : Option (List (List K)))
    (hl : U.length = cols.length) (hu : o.hasInputs = true → inputs = some U) :
    o.block cols inputs = (zip cols U).map fun p => o.dataCol p.1 p.2 := by
  rw [OpKind.block]
  by_cases hi : o.hasInputs = true
  · rw [if_pos hi, hu hi, OpKind.datablock, Option.getD_some, zip, map_zipWith]
  · rw [if_neg hi]
    have hi' : o.hasInputs = false := by simpa using hi
    rw [← zipWith_left_eq_map (fun q => o.dataCol q []) cols U hl.symm, zip, map_zipWith]
    congr 1
    funext q u
    exact dataCol_ignores_input o hi' _ _ _

/-- Row `j` of the data matrix is the concatenation of the data columns of the operators to infer. -/
theorem dataMatrix_row {S : Type} [CommSemiring K] (M : Model K S) (cols U : List (List K))
    (inputs : Option (Nat × List (List K))) (hl : U.length = cols.length)
    (hu : ∀ o ∈ M.toInfer, o.hasInputs = true → inputs.map Prod.snd = some U) (j : Nat)
    (hj : j < cols.length) :
    (M.dataMatrix cols inputs).rows.length = cols.length ∧ (M.dataMatrix cols inputs).rows.getD j []
      = M.toInfer.flatMap fun o => o.dataCol (cols.getD j []) (U.getD j []) := by
  have h1 : M.toInfer.map (fun o => o.block cols (inputs.map Prod.snd))
      = (M.toInfer.map fun o => fun p : List K × List K => o.dataCol p.1 p.2).map
          fun f => (zip cols U).map f := by
    rw [map_map]
    apply map_congr_left
    intro o ho
    exact block_eq o cols U _ hl (hu o ho)
  have hz : (zip cols U).length = cols.length := by simp [hl]
  have h2 : (M.dataMatrix cols inputs).rows = (zip cols U).map fun p =>
      M.toInfer.flatMap fun o => o.dataCol p.1 p.2 := by
    simp only [Model.dataMatrix]
    rw [h1, ← hz, hstack_map]
    simp [flatMap_map]
  rw [h2]
  refine ⟨by simp [hl], ?_⟩
  rw [getD_eq_getElem _ _ (by simp [hl, hj]), getElem_map, getElem_zip, getD_eq_getElem _ _ hj,
    getD_eq_getElem _ _ (by omega)]

/-! ### Extracting the operators -/

theorem colSlice_fits {o : OpKind} {r m : Nat} {Ohat : Mat K} (hO : Ohat.WF) (hOr : Ohat.nrows = r)
    (i : Nat) (h : i + o.dim r m ≤ Ohat.ncols) :
    o.Fits (Ohat.colSlice i (i + o.dim r m)) r m := by
  refine ⟨⟨by simpa [Mat.colSlice] using hO.1, ?_⟩, hOr, ?_⟩
  · intro row hrow
    simp only [Mat.colSlice, mem_map] at hrow
    obtain ⟨row', hrow', rfl⟩ := hrow
    rw [length_take, length_drop, hO.2 row' hrow']
    simp only [Mat.colSlice]
    omega
  · simp only [Mat.colSlice]; omega

/-- What the extraction does to one operator. -/
def SlotStep (r m : Nat) (s s' : Slot K) : Prop :=
  s'.infer = s.infer ∧ s'.op.kind = s.op.kind ∧ (s.infer = false → s' = s) ∧
    (s.infer = true → s'.op.Cal r m)

def inferDim (r m : Nat) (slots : List (Slot K)) : Nat :=
  ((slots.filter Slot.infer).map fun s => s.op.kind.dim r m).sum

theorem inferDim_cons (r m : Nat) (s : Slot K) (slots : List (Slot K)) :
    inferDim r m (s :: slots) = (if s.infer then s.op.kind.dim r m else 0) + inferDim r m slots := by
  cases h : s.infer <;> simp [inferDim, h]

theorem extractLoop_spec [Field K] (r m : Nat) (hr : 0 < r) (Ohat : Mat K) (hO : Ohat.WF)
    (hOr : Ohat.nrows = r) (slots : List (Slot K)) (index : Nat)
    (h : index + inferDim r m slots ≤ Ohat.ncols) :
    (extractLoop r m Ohat index slots).2 = .ok () ∧
    List.Forall₂ (SlotStep r m) slots (extractLoop r m Ohat index slots).1 ∧
    hstack r ((((extractLoop r m Ohat index slots).1.filter Slot.infer).filterMap
        fun s => s.op.entries).map Mat.rows)
      = Ohat.rows.map (fun row => (row.drop index).take (inferDim r m slots)) ∧
    (∀ (q : List K) (u : Option (List K)), q.length = r →
      (∀ s ∈ slots, s.infer = true → InputOK s.op.kind m u) → ∀ i, i < r →
      inferSum (extractLoop r m Ohat index slots).1 q u i
        = dot ((Ohat.rows.getD i []).drop index)
          (((slots.filter Slot.infer).map fun s => s.op.kind).flatMap
            fun o => o.dataCol q (u.getD []))) := by
  induction slots generalizing index with
  | nil =>
    refine ⟨rfl, Forall₂.nil, ?_, ?_⟩
    · simp only [extractLoop, filter_nil, filterMap_nil, map_nil, hstack, foldr_nil, inferDim,
        sum_nil, take_zero]
      rw [map_const', hO.1, hOr]
    · intro q u _ _ i _
      simp [extractLoop, inferSum]
  | cons s slots ih =>
    rw [inferDim_cons] at h
    cases hs : s.infer
    · simp only [hs, Bool.false_eq_true, if_false, Nat.zero_add] at h
      obtain ⟨h1, h2, h3, h4⟩ := ih index h
      simp only [extractLoop, hs, Bool.false_eq_true, if_false]
      refine ⟨h1, Forall₂.cons ⟨rfl, rfl, fun _ => rfl, fun h => by rw [hs] at h; cases h⟩ h2, ?_, ?_⟩
      · rw [filter_cons_of_neg (by simp [hs]), h3, inferDim_cons, hs]
        simp
      · intro q u hq hu i hi
        rw [filter_cons_of_neg (by simp [hs])]
        rw [← h4 q u hq (fun s' hs' => hu s' (by simp [hs'])) i hi]
        simp [inferSum, hs]
    · simp only [hs, if_true] at h
      obtain ⟨h1, h2, h3, h4⟩ := ih (index + s.op.kind.dim r m) (by omega)
      have hF := colSlice_fits (o := s.op.kind) (m := m) hO hOr index (by omega)
      have hset := setEntries_fits s.op.kind _ r m hr hF
      set E := Ohat.colSlice index (index + s.op.kind.dim r m) with hE
      have hErows : E.rows = Ohat.rows.map fun row => (row.drop index).take (s.op.kind.dim r m) := by
        simp [hE, Mat.colSlice]
      have hcal : (⟨s.op.kind, some E⟩ : Op K).Cal r m := ⟨E, rfl, hF⟩
      simp only [extractLoop, hs, if_true]
      rw [hset]
      simp only
      refine ⟨h1, Forall₂.cons ⟨hs.symm, rfl, fun h => (by rw [hs] at h; cases h), fun _ => hcal⟩ h2, ?_, ?_⟩
      · rw [filter_cons_of_pos (by simp), filterMap_cons_some (by rfl), map_cons]
        simp only [hstack, foldr_cons] at h3 ⊢
        rw [h3, hErows, zipWith_map, inferDim_cons, hs]
        simp only [zipWith_self, if_true]
        apply map_congr_left
        intro row _
        rw [← drop_drop, take_add]
      · intro q u hq hu i hi
        rw [filter_cons_of_pos (by simp [hs]), map_cons, flatMap_cons]
        have hrow : (Ohat.rows.getD i []).length = Ohat.ncols := by
          rw [getD_eq_getElem _ _ (by rw [hO.1, hOr]; exact hi)]
          exact hO.2 _ (getElem_mem _)
        have hdl : (s.op.kind.dataCol q (u.getD [])).length = s.op.kind.dim r m := by
          rw [dataCol_length, hq]
          by_cases hin : s.op.kind.hasInputs = true
          · obtain ⟨v, rfl, hv⟩ := hu s (by simp) hs hin
            simp [hv]
          · exact dim_ignores_input _ (by simpa using hin) _ _ _
        have e1 : (Ohat.rows.getD i []).drop index
            = ((Ohat.rows.getD i []).drop index).take (s.op.kind.dim r m)
              ++ (Ohat.rows.getD i []).drop (index + s.op.kind.dim r m) := by
          rw [← drop_drop, take_append_drop]
        rw [e1, dot_append _ _ _ _ (by rw [hdl, length_take, length_drop, hrow]; omega)]
        rw [← h4 q u hq (fun s' hs' => hu s' (by simp [hs'])) i hi]
        simp only [inferSum]
        rw [filter_cons_of_pos (by simp), map_cons, sum_cons]
        congr 1
        simp only [Op.val, hErows, matVec, map_map]
        rw [getD_eq_getElem _ _ (by rw [length_map, hO.1, hOr]; exact hi), getElem_map,
          getD_eq_getElem _ _ (by rw [hO.1, hOr]; exact hi)]
        rfl

/-! ### Consistency checks -/

theorem consistentDim_ok {ds : List Nat} {d : Option Nat} (h : consistentDim ds = .ok d) :
    ∀ x ∈ ds, d = some x := by
  cases ds with
  | nil => simp
  | cons a ds =>
    simp only [consistentDim] at h
    split at h
    · rename_i hall
      simp only [Except.ok.injEq] at h
      subst h
      intro x hx
      rcases mem_cons.mp hx with rfl | hx
      · rfl
      · have := all_eq_true.mp hall x hx
        rw [beq_iff_eq.mp this]
    · simp at h

end Opinf
