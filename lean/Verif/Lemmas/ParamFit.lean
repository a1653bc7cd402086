import Verif.Lemmas.ParamLearn

/-!
# Parametric models: assembling the regression and taking the learned matrix apart
-/

namespace Opinf

open List

variable {K S : Type}

theorem hstack_rows (k : Nat) (bs : List (List (List K))) (h : ∀ b ∈ bs, b.length = k) :
    (hstack k bs).length = k ∧
    ∀ j, j < k → (hstack k bs)[j]? = some (bs.flatMap fun b => b.getD j []) := by
  induction bs with
  | nil =>
    refine ⟨by simp [hstack], fun j hj => ?_⟩
    simp [hstack, hj]
  | cons b bs ih =>
    obtain ⟨h1, h2⟩ := ih fun b' hb' => h b' (mem_cons_of_mem _ hb')
    have hb := h b mem_cons_self
    have hc : hstack k (b :: bs) = zipWith (· ++ ·) b (hstack k bs) := rfl
    rw [hc]
    refine ⟨by rw [length_zipWith, h1, hb, Nat.min_self], fun j hj => ?_⟩
    have hjb : j < b.length := by omega
    rw [getElem?_zipWith, h2 j hj, getElem?_eq_getElem hjb, flatMap_cons, getD_eq_getElem _ _ hjb]

theorem setParams_ok {t t' : Interp K} {ps : List (Par K)} (h : t.setParams ps = .ok t') :
    t.itp = none ∧ ∃ P, PArr.ofPars ps = .ok P ∧ t' = { t with params := some P, p := some P.dim } := by
  unfold Interp.setParams at h
  split at h
  · cases h
  · rename_i hi
    split at h
    · cases h
    · rename_i P hP
      refine ⟨by simpa using hi, P, hP, (Except.ok.inj h).symm⟩

/-- What `set_training_parameters` does to the operators. -/
theorem setAllParams_ok (ps : List (Par K)) (slots slots' : List (PSlot K))
    (h : setAllParams ps slots = (slots', .ok ())) :
    Forall₂ (fun s s' => s'.infer = s.infer ∧
      (∀ t, s.op = .itp t → ∃ t', t.setParams ps = .ok t' ∧ s'.op = .itp t') ∧
      (s.op.interp? = none → s' = s)) slots slots' := by
  induction slots generalizing slots' with
  | nil => simp only [setAllParams, Prod.mk.injEq, and_true] at h; subst h; exact .nil
  | cons s ss ih =>
    rw [setAllParams] at h
    split at h
    · rename_i t ht
      split at h
      · simp at h
      · rename_i t' ht'
        simp only [Prod.mk.injEq] at h
        rw [← h.1]
        refine .cons ⟨rfl, ?_, ?_⟩ (ih (setAllParams ps ss).1 (Prod.ext rfl h.2))
        · intro t1 ht1
          rw [ht] at ht1
          cases ht1
          exact ⟨t', ht', rfl⟩
        · intro hn
          rw [ht] at hn
          simp [POp.interp?] at hn
    · rename_i hno
      simp only [Prod.mk.injEq] at h
      rw [← h.1]
      refine .cons ⟨rfl, ?_, fun _ => rfl⟩ (ih (setAllParams ps ss).1 (Prod.ext rfl h.2))
      intro t1 ht1
      exact absurd ht1 (hno t1)

/-- What the extraction does to one operator of a parametric model. -/
def PSlotStep [CommSemiring K] (lib : ItpLib K) (ps : List (Par K)) (r m : Nat) (s s' : PSlot K) : Prop :=
  s'.infer = s.infer ∧ s'.op.kind = s.op.kind ∧ (s.infer = false → s' = s) ∧
  (s.infer = true → ∀ mu ∈ ps, ∃ op, s'.op.EvalsTo lib mu r m op)

/-- The width of the part of the data matrix that belongs to some operators. -/
def pInferDim (n r m : Nat) (slots : List (PSlot K)) : Nat :=
  ((slots.filter PSlot.infer).map fun s => s.op.dim n r m).sum

theorem pExtract_spec [Field K] [LinearOrder K] (lib : ItpLib K) (r m n : Nat) (ps : List (Par K))
    (smp : List (Par K × List K × Option (List K))) (O : Mat K) (hO : O.WF) (hOr : O.nrows = r)
    (slots slots' : List (PSlot K)) (index : Nat) (bs : List (List (List K)))
    (hb : Forall₂ (fun s cols => POp.LearnsWith lib r m n ps smp s.op cols) (slots.filter PSlot.infer) bs)
    (hd : index + pInferDim n r m slots ≤ O.ncols)
    (h : pExtract lib n r m O index slots = (slots', .ok ())) :
    Forall₂ (PSlotStep lib ps r m) slots slots' ∧
    ∀ (j : Nat) y, smp[j]? = some y → ∀ i, i < r →
      ((slots'.filter PSlot.infer).map fun s => (s.op.val lib y.1 y.2.1 y.2.2).getD i 0).sum
        = dot ((O.rows.getD i []).drop index) (bs.flatMap fun b => b.getD j []) := by
  induction slots generalizing slots' index bs with
  | nil =>
    simp only [pExtract, Prod.mk.injEq, and_true] at h
    subst h
    simp only [filter_nil] at hb
    cases hb
    exact ⟨.nil, fun j y _ i _ => by simp⟩
  | cons s ss ih =>
    rw [pExtract] at h
    cases hs : s.infer with
    | false =>
      rw [if_neg (by simp [hs])] at h
      simp only [Prod.mk.injEq] at h
      rw [filter_cons_of_neg (by simp [hs])] at hb
      have hd' : index + pInferDim n r m ss ≤ O.ncols := by
        rw [pInferDim, filter_cons_of_neg (by simp [hs])] at hd; exact hd
      obtain ⟨h1, h2⟩ := ih (pExtract lib n r m O index ss).1 index bs hb hd' (Prod.ext rfl h.2)
      rw [← h.1]
      refine ⟨.cons ⟨rfl, rfl, fun _ => rfl, fun ht => by rw [hs] at ht; cases ht⟩ h1, ?_⟩
      intro j y hy i hi
      rw [filter_cons_of_neg (by simp [hs])]
      exact h2 j y hy i hi
    | true =>
      rw [if_pos hs] at h
      rw [filter_cons_of_pos (by simp [hs])] at hb
      have hdim : pInferDim n r m (s :: ss) = s.op.dim n r m + pInferDim n r m ss := by
        rw [pInferDim, filter_cons_of_pos (by simp [hs]), map_cons, sum_cons]; rfl
      rw [hdim] at hd
      cases hb with
      | @cons _ cols _ bs hL hb =>
      simp only at h
      rcases hset : s.op.setBlock lib (O.colSlice index (index + s.op.dim n r m)) with ⟨o, x⟩
      rw [hset] at h
      cases x with
      | error e => simp at h
      | ok u =>
        simp only [Prod.mk.injEq] at h
        obtain ⟨h1, h2⟩ := ih (pExtract lib n r m O (index + s.op.dim n r m) ss).1
          (index + s.op.dim n r m) bs hb (by omega) (Prod.ext rfl h.2)
        obtain ⟨l1, l2, l3⟩ := hL
        have hErows : (O.colSlice index (index + s.op.dim n r m)).rows
            = O.rows.map fun row => (row.drop index).take (s.op.dim n r m) := by
          simp [Mat.colSlice]
        have hBWF : (O.colSlice index (index + s.op.dim n r m)).WF := by
          refine ⟨by simpa [Mat.colSlice] using hO.1, ?_⟩
          intro row hrow
          rw [hErows] at hrow
          obtain ⟨row', hrow', rfl⟩ := mem_map.mp hrow
          rw [length_take, length_drop, hO.2 row' hrow']
          simp only [Mat.colSlice]
          omega
        obtain ⟨k1, k2, k3⟩ := l3 _ o hBWF hOr (by simp only [Mat.colSlice]; omega) hset
        rw [← h.1]
        refine ⟨.cons ⟨rfl, k1, fun hf => (by rw [hs] at hf; cases hf), fun _ => k2⟩ h1, ?_⟩
        intro j y hy i hi
        rw [filter_cons_of_pos (by simp [hs]), map_cons, sum_cons, h2 j y hy i hi, flatMap_cons]
        have hj : j < cols.length := by
          rw [l1]; exact (List.getElem?_eq_some_iff.mp hy).1
        rw [k3 j y _ hy (getElem?_eq_getElem hj), getD_eq_getElem _ _ hj]
        have hrow : (O.rows.getD i []).length = O.ncols := by
          rw [getD_eq_getElem _ _ (by rw [hO.1, hOr]; exact hi)]
          exact hO.2 _ (getElem_mem _)
        have hdl : cols[j].length = s.op.dim n r m := l2 _ (getElem_mem _)
        have e1 : (O.rows.getD i []).drop index
            = ((O.rows.getD i []).drop index).take (s.op.dim n r m)
              ++ (O.rows.getD i []).drop (index + s.op.dim n r m) := by
          rw [← drop_drop, take_append_drop]
        rw [e1, dot_append _ _ _ _ (by rw [hdl, length_take, length_drop, hrow]; omega)]
        congr 1
        simp only [hErows, matVec, map_map]
        rw [getD_eq_getElem _ _ (by rw [length_map, hO.1, hOr]; exact hi), getElem_map,
          getD_eq_getElem _ _ (by rw [hO.1, hOr]; exact hi)]
        rfl

/-! ### The operators after processing -/

theorem POp.evaluate_fill [Semiring K] (lib : ItpLib K) (o : POp K) (mu : Par K) (op : Op K)
    (h : (o.evaluate lib mu).2 = .ok op) : ((o.fill mu.dim).evaluate lib mu).2 = .ok op := by
  cases o with
  | np o => exact h
  | aff a =>
    simp only [POp.fill]
    by_cases hp : a.p.isNone = true
    · rw [if_pos hp]
      simp only [POp.evaluate, Affine.evaluate] at h ⊢
      have e1 : Affine.learnDim { a with p := some mu.dim } mu = { a with p := some mu.dim } := by
        simp [Affine.learnDim]
      have e2 : a.learnDim mu = { a with p := some mu.dim } := by
        rw [Affine.learnDim, if_pos hp]
      rw [e1]
      rw [e2] at h
      cases he : a.entries with
      | none => rw [he] at h; simp at h
      | some As => rw [he] at h; exact h
    · rw [if_neg hp]; exact h
  | itp t =>
    simp only [POp.fill]
    by_cases hp : t.p.isNone = true
    · simp only [POp.evaluate, Interp.evaluate] at h
      rw [Option.isNone_iff_eq_none] at hp
      rw [hp] at h
      split at h <;> simp at h
    · rw [if_neg hp]; exact h

theorem POp.EvalsTo.fill [Semiring K] {lib : ItpLib K} {o : POp K} {mu : Par K} {r m : Nat} {op : Op K}
    (h : o.EvalsTo lib mu r m op) : (o.fill mu.dim).EvalsTo lib mu r m op :=
  ⟨POp.evaluate_fill lib o mu op h.1, by rw [POp.fill_kind]; exact h.2.1, h.2.2⟩

theorem fill_clear_learnable [LinearOrder K] (lib : ItpLib K) (ps : List (Par K)) (o : POp K) (d : Nat)
    (h : o.Learnable lib ps) : (o.clear.fill d).Learnable lib ps := by
  cases o with
  | np o => trivial
  | aff a => exact h
  | itp t => exact h

theorem evalsTo_itp [Semiring K] {lib : ItpLib K} {t : Interp K} {mu : Par K} {r m : Nat} {op : Op K}
    (h : (POp.itp t).EvalsTo lib mu r m op) : t.itp.isSome = true := by
  have h1 : t.evaluate lib mu = .ok op := h.1
  unfold Interp.evaluate at h1
  split at h1
  · cases h1
  split at h1
  · cases h1
  split at h1
  · cases h1
  split at h1
  · cases h1
  · rename_i hi; rw [hi]; rfl

/-- One operator to infer, after processing: ready, learnable, of the same class. -/
theorem prep_infer [LinearOrder K] (lib : ItpLib K) (ps : List (Par K)) (d : Nat) (s s' : PSlot K)
    (hs : s.infer = true) (hl : s.op.Learnable lib ps)
    (h : (∀ t, (prepSlot d s).op = .itp t → ∃ t', t.setParams ps = .ok t' ∧ s'.op = .itp t') ∧
      ((prepSlot d s).op.interp? = none → s' = prepSlot d s)) :
    s'.op.Ready ps d ∧ s'.op.Learnable lib ps ∧ s'.op.kind = s.op.kind := by
  have hp : (prepSlot d s).op = s.op.clear.fill d := by simp [prepSlot, hs]
  cases ho : s.op with
  | np o =>
    rw [h.2 (by rw [hp, ho]; rfl), hp, ho]
    exact ⟨trivial, trivial, rfl⟩
  | aff a =>
    rw [h.2 (by rw [hp, ho]; rfl), hp, ho]
    rw [ho] at hl
    exact ⟨rfl, hl, rfl⟩
  | itp t =>
    rw [ho] at hp hl
    obtain ⟨t', h1, h2⟩ := h.1 _ hp
    rw [h2]
    obtain ⟨-, P, hP, rfl⟩ := setParams_ok h1
    exact ⟨⟨P, hP, rfl, rfl⟩, hl, rfl⟩

/-- One known operator, after processing: it still evaluates to the same operators. -/
theorem prep_known [Semiring K] (lib : ItpLib K) (ps : List (Par K)) (hps : ps ≠ []) (d r m : Nat)
    (hdim : ∀ mu ∈ ps, mu.dim = d) (s s' : PSlot K) (hs : s.infer = false)
    (hk : ∀ mu ∈ ps, ∃ op, s.op.EvalsTo lib mu r m op)
    (h : (∀ t, (prepSlot d s).op = .itp t → ∃ t', t.setParams ps = .ok t' ∧ s'.op = .itp t') ∧
      ((prepSlot d s).op.interp? = none → s' = prepSlot d s)) :
    s' = prepSlot d s ∧ s'.op.kind = s.op.kind ∧ (s.op.interp? = none) ∧
    ∀ mu ∈ ps, ∀ op, s.op.EvalsTo lib mu r m op → s'.op.EvalsTo lib mu r m op := by
  have hp : (prepSlot d s).op = s.op.fill d := by simp [prepSlot, hs]
  have hno : s.op.interp? = none := by
    cases ho : s.op with
    | np o => rfl
    | aff a => rfl
    | itp t =>
      exfalso
      obtain ⟨mu, hmu⟩ := exists_mem_of_ne_nil ps hps
      obtain ⟨op, hop⟩ := hk mu hmu
      have hf := hop.fill
      rw [hdim mu hmu, ← hp] at hf
      cases hq : (prepSlot d s).op with
      | np o => rw [hp, ho] at hq; simp [POp.fill] at hq
      | aff a => rw [hp, ho] at hq; simp [POp.fill] at hq
      | itp t1 =>
        obtain ⟨t', h1, -⟩ := h.1 t1 hq
        rw [hq] at hf
        have := evalsTo_itp hf
        unfold Interp.setParams at h1
        rw [if_pos this] at h1
        cases h1
  have hno' : (prepSlot d s).op.interp? = none := by
    rw [hp]
    cases ho : s.op with
    | np o => rfl
    | aff a => rfl
    | itp t => rw [ho] at hno; simp [POp.interp?] at hno
  have he := h.2 hno'
  refine ⟨he, by rw [he, prepSlot_kind], hno, ?_⟩
  intro mu hmu op hop
  rw [he, hp, ← hdim mu hmu]
  exact hop.fill

/-! ### The samples -/

/-- The training data as handed to `fit`: every training parameter with the columns of its states and, if
the model has inputs, of its inputs. -/
def trainData (hasIn : Bool) (ps : List (Par K)) (states : List (Arg K)) (inputs : Option (List (Arg K))) :
    List (Par K × List (List K) × Option (List (List K))) :=
  if hasIn then
    zipWith (fun mu x => (mu, (atleast2d x.1).2, some (atleast2d x.2).2)) ps (zip states (inputs.getD []))
  else zipWith (fun mu Q => (mu, (atleast2d Q).2, none)) ps states

/-- The samples `(mu, q, u)` of the training data. -/
def trainSamples (hasIn : Bool) (ps : List (Par K)) (states : List (Arg K))
    (inputs : Option (List (Arg K))) : List (Par K × List K × Option (List K)) :=
  dataSamples (trainData hasIn ps states inputs)

theorem makeSets_triple_some (ps : List (Par K)) (states us : List (Arg K)) :
    (makeSets ps (states.map atleast2d) ((us.map atleast2d).map some)).map PSet.triple
      = trainData true ps states (some us) := by
  simp only [makeSets, trainData, if_true, Option.getD_some, map_zipWith, PSet.triple, zip_map,
    Option.map_some, map_map, zipWith_map_right]
  rfl

theorem makeSets_triple_none (ps : List (Par K)) (states : List (Arg K)) (inputs : Option (List (Arg K)))
    (h : states.length = ps.length) :
    (makeSets ps (states.map atleast2d) (replicate ps.length none)).map PSet.triple
      = trainData false ps states inputs := by
  simp only [makeSets, trainData, Bool.false_eq_true, if_false, map_zipWith, PSet.triple]
  rw [← h]
  clear h
  induction states generalizing ps with
  | nil => simp
  | cons a states ih =>
    cases ps with
    | nil => simp
    | cons mu ps =>
      simp only [map_cons, length_cons, replicate_succ, zip_cons_cons, zipWith_cons_cons, ih ps]
      rfl

theorem makeSets_mu (ps : List (Par K)) (st : List (Nat × List (List K)))
    (U : List (Option (Nat × List (List K)))) (h1 : st.length = ps.length) (h2 : U.length = ps.length) :
    (makeSets ps st U).map PSet.mu = ps ∧ (makeSets ps st U).length = ps.length := by
  have hl : (zip st U).length = ps.length := by rw [length_zip, h1, h2, Nat.min_self]
  refine ⟨?_, by rw [makeSets, length_zipWith, hl, Nat.min_self]⟩
  simp only [makeSets, map_zipWith]
  exact zipWith_eq_left_of_length ps _ hl
where
  zipWith_eq_left_of_length {α β : Type} (l : List α) (l' : List β) (h : l'.length = l.length) :
      zipWith (fun a _ => a) l l' = l := by
    induction l generalizing l' with
    | nil => simp
    | cons a l ih =>
      cases l' with
      | nil => simp at h
      | cons b l' => simp only [zipWith_cons_cons]; rw [ih l' (by simpa using h)]

end Opinf
