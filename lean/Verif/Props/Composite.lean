import Verif.Props.TransformSplit
import Verif.Props.TransformReject
import Verif.Props.InplaceFlag

/-!
# C118: pipelines and multi-variable transformers are consistent by construction

Specification: dimensions of the members, stated member by member.
-/

namespace Opinf

open List

variable {K S : Type}

/-! ### Pipelines -/

/-- No two members have different state dimensions. -/
def Agreeing (I : TfI K S) (ts : List S) : Prop :=
  ∀ t ∈ ts, ∀ t' ∈ ts, ∀ n m, I.dim t = some n → I.dim t' = some m → n = m

theorem agreeing_iff (I : TfI K S) (ts : List S) : Agreeing I ts ↔ (ts.filterMap I.dim).dedup.length ≤ 1 := by
  constructor
  · intro h
    by_contra hc
    obtain ⟨a, b, l, hl⟩ : ∃ a b l, (ts.filterMap I.dim).dedup = a :: b :: l := by
      match hd : (ts.filterMap I.dim).dedup with
      | [] => simp [hd] at hc
      | [a] => simp [hd] at hc
      | a :: b :: l => exact ⟨a, b, l, rfl⟩
    have ha : a ∈ ts.filterMap I.dim := mem_dedup.1 (by rw [hl]; simp)
    have hb : b ∈ ts.filterMap I.dim := mem_dedup.1 (by rw [hl]; simp)
    obtain ⟨t, ht, e⟩ := mem_filterMap.1 ha
    obtain ⟨t', ht', e'⟩ := mem_filterMap.1 hb
    have hn := nodup_dedup (ts.filterMap I.dim)
    rw [hl, nodup_cons] at hn
    exact hn.1 (by rw [h t ht t' ht' a b e e']; simp)
  · intro h t ht t' ht' n m e e'
    have hn : n ∈ (ts.filterMap I.dim).dedup := mem_dedup.2 (mem_filterMap.2 ⟨t, ht, e⟩)
    have hm : m ∈ (ts.filterMap I.dim).dedup := mem_dedup.2 (mem_filterMap.2 ⟨t', ht', e'⟩)
    match hd : (ts.filterMap I.dim).dedup with
    | [] => rw [hd] at hn; cases hn
    | [a] =>
      rw [hd] at hn hm
      rw [mem_singleton.1 hn, mem_singleton.1 hm]
    | a :: b :: l => rw [hd] at h; simp at h

/-- **C118** (pipelines). `TransformerPipeline(transformers)` accepts exactly the transformers no two of which have different
state dimensions, and raises `ValueError` for the others. -/
theorem C118_pipeline_made (I : TfI K S) (ts : List S) :
    (pipeMake I ts = .ok ts ↔ Agreeing I ts) ∧ (pipeMake I ts = .error .value ↔ ¬ Agreeing I ts) := by
  rw [agreeing_iff, pipeMake]
  by_cases h : (ts.filterMap I.dim).dedup.length ≤ 1
  · simp [h]
  · simp [h]

/-- **C118** (pipelines). The state dimension of a pipeline is that of any member that has one. -/
theorem C118_pipeline_dimension (I : TfI K S) (ts : List S) (h : Agreeing I ts) (n : Nat) :
    (pipeI I).dim ts = some n ↔ ∃ t ∈ ts, I.dim t = some n := by
  change firstDim I ts = some n ↔ _
  induction ts with
  | nil => simp [firstDim]
  | cons t ts ih =>
    have ih := ih fun a ha b hb => h a (mem_cons_of_mem _ ha) b (mem_cons_of_mem _ hb)
    rw [firstDim]
    cases ht : I.dim t with
    | none =>
      simp only [ih, mem_cons, exists_eq_or_imp, ht, reduceCtorEq, false_or]
    | some m =>
      simp only [Option.some.injEq]
      constructor
      · rintro rfl
        exact ⟨t, mem_cons_self, ht⟩
      · rintro ⟨t', ht', e⟩
        exact h t mem_cons_self t' ht' m n ht e

/-- **C118** (empty pipelines). The constructor accepts an empty list, but no method of the pipeline can be used. -/
theorem C118_pipeline_empty (I : TfI K S) (b : Bool) (Y : Snap K) (locs : Option Locs) :
    pipeMake I [] = .ok [] ∧ (pipeI I).dim [] = none ∧ ((pipeI I).fit [] Y).2 = .error .index ∧
    (pipeI I).fitTransform [] b Y = ([], Y, .error .index) ∧ (pipeI I).transform [] b Y = (Y, .error .index) ∧
    (pipeI I).ddts [] b Y = (Y, .error .index) ∧ (pipeI I).inverse [] b Y locs = (Y, .error .index) :=
  ⟨rfl, rfl, rfl, rfl, rfl, rfl, rfl⟩

/-! ### Several variables -/

/-- A transformer without state dimension accepts any. -/
def Settable (I : TfI K S) (t : S) : Prop := I.dim t = none → ∀ n, ∃ t', I.setDim t n = (t', .ok ()) ∧ I.dim t' = some n

/-- What the constructor makes of a transformer for a variable of size `n`. -/
def SizedAs (I : TfI K S) (t : S) (n : Nat) (t' : S) : Prop :=
  (I.dim t = some n ∧ t' = t) ∨ (I.dim t = none ∧ I.setDim t n = (t', .ok ()) ∧ I.dim t' = some n)

/-- A transformer and a variable size do not contradict each other. -/
def Admits (I : TfI K S) (t : S) (n : Nat) : Prop := ∀ m, I.dim t = some m → m = n

theorem setSizes_spec (I : TfI K S) (ts : List S) (ns : List Nat) (hs : ∀ t ∈ ts, Settable I t) (hl : ns.length = ts.length) :
    (Forall₂ (Admits I) ts ns → ∃ ts', setSizes I ts ns = .ok ts' ∧
      Forall₂ (fun p t' => SizedAs I p.1 p.2 t') (ts.zip ns) ts') ∧
    (¬ Forall₂ (Admits I) ts ns → setSizes I ts ns = .error .value) := by
  induction ts generalizing ns with
  | nil =>
    cases ns with
    | nil => exact ⟨fun _ => ⟨[], rfl, .nil⟩, fun h => (h .nil).elim⟩
    | cons n ns => simp at hl
  | cons t ts ih =>
    cases ns with
    | nil => simp at hl
    | cons n ns =>
      obtain ⟨i1, i2⟩ := ih ns (fun x hx => hs x (mem_cons_of_mem _ hx)) (by simpa using hl)
      have step : Admits I t n → ∃ t', SizedAs I t n t' ∧
          setSizes I (t :: ts) (n :: ns) = (do return t' :: (← setSizes I ts ns)) := by
        intro ha
        cases hd : I.dim t with
        | none =>
          obtain ⟨t', e1, e2⟩ := hs t mem_cons_self hd n
          refine ⟨t', .inr ⟨hd, e1, e2⟩, ?_⟩
          simp only [setSizes, hd, e1, pure, Except.pure, bind, Except.bind]
        | some m =>
          obtain rfl := ha m hd
          refine ⟨t, .inl ⟨hd, rfl⟩, ?_⟩
          simp only [setSizes, hd, if_true, pure, Except.pure, bind, Except.bind]
      constructor
      · intro h
        cases h with
        | cons ha hr =>
          obtain ⟨t', g1, g2⟩ := step ha
          obtain ⟨ts', g3, g4⟩ := i1 hr
          refine ⟨t' :: ts', ?_, .cons g1 g4⟩
          rw [g2, g3]
          rfl
      · intro h
        by_cases ha : Admits I t n
        · obtain ⟨t', -, g2⟩ := step ha
          rw [g2, i2 fun hr => h (.cons ha hr)]
          rfl
        · have : ∃ m, I.dim t = some m ∧ m ≠ n := by
            by_contra hc
            push Not at hc
            exact ha fun m hm => hc m hm
          obtain ⟨m, hm, hne⟩ := this
          simp only [setSizes, hm, if_neg hne, throw, throwThe, MonadExceptOf.throw, bind, Except.bind]

/-- **C118** (several variables). `TransformerMulti(transformers, variable_sizes)` accepts exactly a positive number of
transformers with as many sizes, each size being the state dimension of its transformer if that has one. Then each
transformer has the size given for it, the total dimension is the sum, and transformers that had a dimension are unchanged.
Everything else raises `ValueError`. -/
theorem C118_multi_made (I : TfI K S) (ts : List S) (ns : List Nat) (hs : ∀ t ∈ ts, Settable I t) :
    (ts ≠ [] ∧ Forall₂ (Admits I) ts ns → ∃ ts', multiMake I ts (some ns) = .ok ts' ∧
      Forall₂ (fun p t' => SizedAs I p.1 p.2 t') (ts.zip ns) ts' ∧ Forall₂ (fun t n => I.dim t = some n) ts' ns ∧
      (multiI I).dim ts' = some ns.sum) ∧
    (¬ (ts ≠ [] ∧ Forall₂ (Admits I) ts ns) → multiMake I ts (some ns) = .error .value) := by
  constructor
  · rintro ⟨h0, h1⟩
    have hl := h1.length_eq
    obtain ⟨ts', g1, g2⟩ := (setSizes_spec I ts ns hs hl.symm).1 h1
    have hd : Forall₂ (fun t n => I.dim t = some n) ts' ns := by
      clear g1 h1 h0 hs
      induction ts generalizing ns ts' with
      | nil =>
        cases ns with
        | nil => cases g2; exact .nil
        | cons n ns => simp at hl
      | cons t ts ih =>
        cases ns with
        | nil => simp at hl
        | cons n ns =>
          rw [zip_cons_cons] at g2
          cases g2 with
          | cons a b =>
            refine .cons ?_ (ih ns (by simpa using hl) _ b)
            rcases a with ⟨a, rfl⟩ | ⟨-, -, a⟩ <;> exact a
    refine ⟨ts', ?_, g2, hd, (multiDim_eq hd).1⟩
    rw [multiMake, if_neg (by simpa [List.isEmpty_iff] using h0)]
    simp only [hl, ne_eq, not_true, if_false]
    exact g1
  · intro h
    rw [multiMake]
    by_cases h0 : ts = []
    · simp [h0]
    · rw [if_neg (by simpa [List.isEmpty_iff] using h0)]
      by_cases hl : ns.length = ts.length
      · simp only [hl, ne_eq, not_true, if_false]
        exact (setSizes_spec I ts ns hs hl).2 fun h1 => h ⟨h0, h1⟩
      · simp only [ne_eq, hl, not_false_iff, if_true]

/-- **C118** (several variables). Without sizes only the number of transformers matters. -/
theorem C118_multi_unsized (I : TfI K S) (ts : List S) :
    multiMake I ts none = if ts = [] then .error .value else .ok ts := by
  rw [multiMake]
  by_cases h : ts = [] <;> simp [h, List.isEmpty_iff]

/-- The built-in transformers as their constructors make them. -/
def Basic.Sane (t : Basic K) : Prop :=
  match t with
  | .inr (.inl s) => s.scl.isArr = true → s.n ≠ none
  | _ => True

/-- **C118** (built-in transformers). They accept any state dimension while they have none. -/
theorem C118_builtin_settable [Field K] [LinearOrder K] (sqrt : K → K) (t : Basic K) (h : t.Sane) :
    Settable (basicI sqrt) t := by
  intro hd n
  rcases t with s | s | s | s
  · cases hd
  · have hn : s.n = none := hd
    have ha : s.scl.isArr ≠ true := fun e => h e hn
    refine ⟨.inr (.inl { s with n := some n }), ?_, rfl⟩
    change ((.inr (.inl (s.setDim n).1) : Basic K), (s.setDim n).2) = _
    rw [Scale.setDim, if_neg fun e => ha e.1]
  · exact ⟨.inr (.inr (.inl { s with n := some n })), rfl, rfl⟩
  · exact ⟨.inr (.inr (.inr { s with n := some n })), rfl, rfl⟩

/-- **C118** (calibration). Once all sizes are known, calibration keeps to them: data with another number of rows raise
`DimensionalityError` and nothing changes. -/
theorem C118_multi_fit_sized (I : TfI K S) (ts : List S) (ns : List Nat) (hd : Forall₂ (fun t n => I.dim t = some n) ts ns)
    (b : Bool) (Y : Snap K) (hY : Y.len ≠ ns.sum) :
    (multiI I).fitTransform ts b Y = (ts, Y, .error .dimensionality) := by
  change multiFitTransform I ts b Y = _
  simp only [multiFitTransform, (multiDim_eq hd).1, multiSplit_bad hd hY]

/-- **C118** (calibration). While a size is unknown, data whose number of rows is not a multiple of the number of variables
raise `DimensionalityError` and nothing changes; for other data *all* variables get the same size, also those whose
transformers had another state dimension. -/
theorem C118_multi_fit_unsized (I : TfI K S) (ts : List S) (t : S) (ht : t ∈ ts) (hd : I.dim t = none) (b : Bool) (Y : Snap K) :
    (Y.len % ts.length ≠ 0 → (multiI I).fitTransform ts b Y = (ts, Y, .error .dimensionality)) ∧
    (Y.len % ts.length = 0 → (∀ t ∈ ts, ∀ n, I.dim (I.forceDim t n) = some n) →
      (multiI I).fitTransform ts b Y = (multiI I).fitTransform (ts.map fun t => I.forceDim t (Y.len / ts.length)) b Y ∧
      (multiI I).dim (ts.map fun t => I.forceDim t (Y.len / ts.length)) = some Y.len) := by
  have h0 : multiDim I ts = none := by
    unfold multiDim
    rw [Option.map_eq_none_iff]
    clear * - ht hd
    induction ts with
    | nil => cases ht
    | cons u us ih =>
      rcases mem_cons.1 ht with rfl | h
      · simp [mapM_cons, hd]
      · rw [mapM_cons]
        cases I.dim u with
        | none => rfl
        | some a => simp [ih h]
  have hpos : 0 < ts.length := length_pos_of_mem ht
  constructor
  · intro h
    change multiFitTransform I ts b Y = _
    simp only [multiFitTransform, h0, if_neg h]
  · intro h hf
    have hds : Forall₂ (fun t n => I.dim t = some n) (ts.map fun t => I.forceDim t (Y.len / ts.length))
        (replicate ts.length (Y.len / ts.length)) := by
      generalize Y.len / ts.length = m
      clear * - hf
      induction ts with
      | nil => exact .nil
      | cons t ts ih =>
        exact .cons (hf t mem_cons_self m) (ih fun x hx => hf x (mem_cons_of_mem _ hx))
    have hdim := (multiDim_eq hds).1
    have hsum : (replicate ts.length (Y.len / ts.length)).sum = Y.len := by
      rw [sum_replicate, smul_eq_mul, Nat.mul_comm]
      exact Nat.div_mul_cancel (Nat.dvd_of_mod_eq_zero h)
    rw [hsum] at hdim
    refine ⟨?_, hdim⟩
    change multiFitTransform I ts b Y = multiFitTransform I _ b Y
    simp only [multiFitTransform, h0, if_pos h, hdim]

/-- **C118** (selected locations). With `locs`, variables of different sizes and arrays whose number of rows is not a multiple of
the number of variables raise `ValueError`. -/
theorem C118_multi_locs (I : TfI K S) (ts : List S) (ns : List Nat) (hd : Forall₂ (fun t n => I.dim t = some n) ts ns)
    (b : Bool) (Y : Snap K) (l : Locs) (h : (∃ n ∈ ns, ∃ m ∈ ns, n ≠ m) ∨ Y.len % ts.length ≠ 0) :
    (multiI I).inverse ts b Y (some l) = (Y, .error .value) := by
  change multiInverse I ts b Y (some l) = _
  obtain ⟨h1, -, h3⟩ := multiDim_eq hd
  simp only [multiInverse, h1]
  split
  · rfl
  · rename_i hc
    rcases h with ⟨n, hn, m, hm, hne⟩ | h
    · exfalso
      have a1 : some n ∈ (ts.map I.dim).dedup := mem_dedup.2 (by rw [h3]; exact mem_map.2 ⟨n, hn, rfl⟩)
      have a2 : some m ∈ (ts.map I.dim).dedup := mem_dedup.2 (by rw [h3]; exact mem_map.2 ⟨m, hm, rfl⟩)
      match hl : (ts.map I.dim).dedup with
      | [] => rw [hl] at a1; cases a1
      | [x] =>
        rw [hl, mem_singleton] at a1 a2
        exact hne (Option.some.inj (a1.trans a2.symm))
      | x :: y :: r => rw [hl] at hc; simp at hc
    · rw [splitEven, if_neg h]

/-- **C118, where it ends**: a size prescribed for one variable is replaced by the equal share when another size is unknown. The
first transformer says 2, the data have 6 rows, and afterwards both variables have 3 rows. -/
theorem C118_prescribed_size_lost :
    let ts : List (Basic ℚ) := [.inr (.inr (.inr ⟨some 2, none⟩)), .inr (.inr (.inr ⟨none, none⟩))]
    multiMake (basicI id) ts none = .ok ts ∧
    ((multiI (basicI id)).fitTransform ts false (.vec [1, 2, 3, 4, 5, 6])).2.2 = .ok (.vec [1, 2, 3, 4, 5, 6]) ∧
    ((multiI (basicI id)).fitTransform ts false (.vec [1, 2, 3, 4, 5, 6])).1.map (basicI id).dim = [some 3, some 3] := by
  refine ⟨rfl, ?_, ?_⟩ <;> decide +kernel

/-! ### Examples -/

/-- A shift of two rows and a scaling by a number. -/
def comTs : List (Basic ℚ) := [.inl ⟨[1, 2], none⟩, .inr (.inl ⟨.num 3, none, none⟩)]

example : Agreeing (basicI id) comTs := (agreeing_iff _ _).2 (by decide +kernel)

example : ¬ Agreeing (basicI id) [.inl ⟨[(1 : ℚ), 2], none⟩, .inl ⟨[1], none⟩] := by
  rw [agreeing_iff]
  decide +kernel

example : ∃ ts', multiMake (basicI id) comTs (some [2, 5]) = .ok ts' ∧ (multiI (basicI id)).dim ts' = some 7 := by
  obtain ⟨ts', h1, -, -, h2⟩ := (C118_multi_made (basicI id) comTs [2, 5] (fun t ht => C118_builtin_settable id t (by
    simp only [comTs, mem_cons, not_mem_nil, or_false] at ht
    rcases ht with rfl | rfl
    · trivial
    · exact fun h => by cases h))).1 ⟨by simp [comTs], .cons (fun m h => by cases h; rfl) (.cons (fun m h => by cases h) .nil)⟩
  exact ⟨ts', h1, h2⟩

example : multiMake (basicI id) comTs (some [3, 5]) = .error .value ∧
    multiMake (basicI id) comTs (some [2]) = .error .value := ⟨rfl, rfl⟩

end Opinf
