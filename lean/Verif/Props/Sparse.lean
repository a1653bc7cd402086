import Verif.Model.Sparse
import Verif.Lemmas.Lift
import Mathlib.Algebra.Field.Rat

/-!
# C109: sparse arrays in HDF5 files

Specification: the entry of a sparse array at a position is the sum of the values stored for it.
-/

namespace Opinf

open List

variable {K : Type}

/-- The stored positions are positions of the array. -/
def SpArray.InRange (A : SpArray K) : Prop := ∀ t ∈ A.items, t.1 < A.nrows ∧ t.2.1 < A.ncols

/-- The sum of the values stored for a position. -/
def storedSum [AddCommMonoid K] (l : List (Nat × Nat × K)) (i j : Nat) : K :=
  (l.map fun t => if t.1 = i ∧ t.2.1 = j then t.2.2 else 0).sum

theorem entryAt_eq [AddCommMonoid K] (A : SpArray K) (i j : Nat) : A.entryAt i j = storedSum A.items i j := by
  rw [SpArray.entryAt, storedSum]
  induction A.items with
  | nil => rfl
  | cons t l ih =>
    rw [filter_cons]
    by_cases h : t.1 = i ∧ t.2.1 = j
    · obtain ⟨rfl, rfl⟩ := h
      simp [ih]
    · have : (t.1 == i && t.2.1 == j) = false := by
        rw [Bool.and_eq_false_iff]
        by_cases h1 : t.1 = i
        · exact .inr (by simpa using fun h2 => h ⟨h1, h2⟩)
        · exact .inl (by simpa using h1)
      rw [this]
      simp [ih, h]

theorem storedSum_addItem [AddCommMonoid K] (i j : Nat) (x : K) (l : List (Nat × Nat × K)) (a b : Nat) :
    storedSum (addItem i j x l) a b = storedSum l a b + if i = a ∧ j = b then x else 0 := by
  induction l with
  | nil => simp [addItem, storedSum]
  | cons t l ih =>
    rw [addItem]
    split
    · rename_i h
      obtain ⟨rfl, rfl⟩ := h
      simp only [storedSum, map_cons, sum_cons]
      by_cases h : t.1 = a ∧ t.2.1 = b
      · simp only [if_pos h]
        rw [add_assoc, add_comm x, ← add_assoc]
      · simp only [if_neg h, add_zero]
    · simp only [storedSum, map_cons, sum_cons] at ih ⊢
      rw [ih, add_assoc]

theorem storedSum_sumDuplicates [AddCommMonoid K] (l : List (Nat × Nat × K)) (a b : Nat) :
    storedSum (sumDuplicates l) a b = storedSum l a b := by
  have key : ∀ acc, storedSum (l.foldl (fun acc t => addItem t.1 t.2.1 t.2.2 acc) acc) a b =
      storedSum acc a b + storedSum l a b := by
    induction l with
    | nil => intro acc; simp [storedSum]
    | cons t l ih =>
      intro acc
      rw [foldl_cons, ih, storedSum_addItem, add_assoc]
      rfl
  rw [sumDuplicates, key]
  simp [storedSum]

theorem mem_addItem [Add K] {i j : Nat} {x : K} {l : List (Nat × Nat × K)} {t : Nat × Nat × K} (h : t ∈ addItem i j x l) :
    (t.1 = i ∧ t.2.1 = j) ∨ ∃ s ∈ l, s.1 = t.1 ∧ s.2.1 = t.2.1 := by
  induction l with
  | nil =>
    rw [addItem, mem_singleton] at h
    exact .inl (by rw [h]; exact ⟨rfl, rfl⟩)
  | cons s l ih =>
    rw [addItem] at h
    split at h
    · rcases mem_cons.1 h with rfl | h
      · exact .inl ⟨rfl, rfl⟩
      · exact .inr ⟨t, mem_cons_of_mem _ h, rfl, rfl⟩
    · rcases mem_cons.1 h with rfl | h
      · exact .inr ⟨t, mem_cons_self, rfl, rfl⟩
      · rcases ih h with h | ⟨s', hs, h⟩
        · exact .inl h
        · exact .inr ⟨s', mem_cons_of_mem _ hs, h⟩

theorem mem_sumDuplicates [Add K] {l : List (Nat × Nat × K)} {t : Nat × Nat × K} (h : t ∈ sumDuplicates l) :
    ∃ s ∈ l, s.1 = t.1 ∧ s.2.1 = t.2.1 := by
  have key : ∀ acc, t ∈ l.foldl (fun acc t => addItem t.1 t.2.1 t.2.2 acc) acc →
      ∃ s ∈ acc ++ l, s.1 = t.1 ∧ s.2.1 = t.2.1 := by
    clear h
    induction l with
    | nil => intro acc h; exact ⟨t, by simpa using h, rfl, rfl⟩
    | cons a l ih =>
      intro acc h
      obtain ⟨s, hs, e⟩ := ih _ h
      rcases mem_append.1 hs with hs | hs
      · rcases mem_addItem hs with ⟨e1, e2⟩ | ⟨s', hs', e1, e2⟩
        · exact ⟨a, by simp, by rw [← e.1, e1], by rw [← e.2, e2]⟩
        · exact ⟨s', by simp [hs'], e1.trans e.1, e2.trans e.2⟩
      · exact ⟨s, by simp [hs], e⟩
  obtain ⟨s, hs, e⟩ := key [] h
  exact ⟨s, by simpa using hs, e⟩

/-- No position is stored twice. -/
def Distinct (l : List (Nat × Nat × K)) : Prop := l.Pairwise fun s t => ¬ (s.1 = t.1 ∧ s.2.1 = t.2.1)

theorem distinct_addItem [Add K] {i j : Nat} {x : K} {l : List (Nat × Nat × K)} (h : Distinct l) :
    Distinct (addItem i j x l) := by
  induction l with
  | nil => exact pairwise_singleton _ _
  | cons t l ih =>
    obtain ⟨h1, h2⟩ := pairwise_cons.1 h
    rw [addItem]
    split
    · rename_i e
      exact pairwise_cons.2 ⟨fun s hs => by rw [← e.1, ← e.2]; exact h1 s hs, h2⟩
    · rename_i e
      refine pairwise_cons.2 ⟨fun s hs he => ?_, ih h2⟩
      rcases mem_addItem hs with ⟨e1, e2⟩ | ⟨s', hs', e1, e2⟩
      · exact e ⟨he.1.trans e1, he.2.trans e2⟩
      · exact h1 s' hs' ⟨he.1.trans e1.symm, he.2.trans e2.symm⟩

theorem distinct_sumDuplicates [Add K] (l : List (Nat × Nat × K)) : Distinct (sumDuplicates l) := by
  have key : ∀ acc, Distinct acc → Distinct (l.foldl (fun acc t => addItem t.1 t.2.1 t.2.2 acc) acc) := by
    induction l with
    | nil => exact fun acc h => h
    | cons t l ih => exact fun acc h => ih _ (distinct_addItem h)
  exact key [] Pairwise.nil

theorem zip_parts (l : List (Nat × Nat × K)) :
    zip (l.map fun t => t.1) (zip (l.map fun t => t.2.1) (l.map fun t => t.2.2)) = l := by
  induction l with
  | nil => rfl
  | cons t l ih => simp [ih]

/-- What comes back: the conversion of the stored entries. -/
theorem load_saved [Add K] (A : SpArray K) (hA : A.InRange) :
    ∃ g, saveSparray (.sparse A) = .ok g ∧
      loadSparray g = cooTo ⟨.coo, false, A.nrows, A.ncols, A.items⟩ A.format.label := by
  refine ⟨_, rfl, ?_⟩
  have h1 : (A.items.map fun t => t.1).any (fun i => decide (A.nrows ≤ i)) = false := by
    rw [any_eq_false]
    intro i hi
    obtain ⟨t, ht, rfl⟩ := mem_map.1 hi
    simpa using (hA t ht).1
  have h2 : (A.items.map fun t => t.2.1).any (fun j => decide (A.ncols ≤ j)) = false := by
    rw [any_eq_false]
    intro i hi
    obtain ⟨t, ht, rfl⟩ := mem_map.1 hi
    simpa using (hA t ht).2
  have h3 : cooMatrix (A.items.map fun t => t.2.2) (A.items.map fun t => t.1) (A.items.map fun t => t.2.1)
      [A.nrows, A.ncols] = .ok ⟨.coo, false, A.nrows, A.ncols, A.items⟩ := by
    rw [cooMatrix, if_neg (by simp), h1, h2, zip_parts]
    rfl
  change (cooMatrix (A.items.map fun t => t.2.2) (A.items.map fun t => t.1) (A.items.map fun t => t.2.1)
    [A.nrows, A.ncols] >>= fun B => cooTo B A.format.label) = _
  rw [h3]
  rfl

theorem cooTo_label [Add K] (A : SpArray K) (f : SpFormat) :
    cooTo A f.label = .ok (if f = .coo then A else ⟨f, A.isArray, A.nrows, A.ncols, sumDuplicates A.items⟩) := by
  cases f <;> rfl

/-! ### Property theorems -/

/-- **C109.** A sparse array that is saved and loaded again has the same format, the same shape and the same entries;
except for the coordinate format every position is stored once. -/
theorem C109_round_trip [AddCommMonoid K] (A : SpArray K) (hA : A.InRange) :
    ∃ g B, saveSparray (.sparse A) = .ok g ∧ loadSparray g = .ok B ∧ B.format = A.format ∧ B.nrows = A.nrows ∧
      B.ncols = A.ncols ∧ B.InRange ∧ (∀ i j, B.entryAt i j = A.entryAt i j) ∧ B.toDense = A.toDense ∧
      (A.format = .coo ∧ B.items = A.items ∨ A.format ≠ .coo ∧ Distinct B.items) := by
  obtain ⟨g, h1, h2⟩ := load_saved A hA
  rw [cooTo_label] at h2
  refine ⟨g, _, h1, h2, ?_⟩
  by_cases hf : A.format = .coo
  · rw [if_pos hf]
    refine ⟨hf.symm, rfl, rfl, hA, fun i j => rfl, rfl, .inl ⟨hf, rfl⟩⟩
  · rw [if_neg hf]
    have he : ∀ i j, (⟨A.format, false, A.nrows, A.ncols, sumDuplicates A.items⟩ : SpArray K).entryAt i j = A.entryAt i j := by
      intro i j
      rw [entryAt_eq, entryAt_eq]
      exact storedSum_sumDuplicates _ _ _
    refine ⟨rfl, rfl, rfl, ?_, he, ?_, .inr ⟨hf, distinct_sumDuplicates _⟩⟩
    · intro t ht
      obtain ⟨s, hs, e1, e2⟩ := mem_sumDuplicates ht
      have := hA s hs
      rwa [e1, e2] at this
    · rw [SpArray.toDense, SpArray.toDense]
      simp only [he]

/-- **C109** (refused): a dense array is refused with `TypeError`. -/
theorem C109_dense_refused (A : Mat K) : saveSparray (.dense A) = .error .type := rfl

/-- **C109** (files that `save_sparray` did not write): a missing part raises `KeyError`, a format that is none of the
seven raises `AttributeError`. -/
theorem C109_not_saved [Add K] (g : H5 K) :
    (g.get? "data" = none → loadSparray g = .error .key) ∧
    (∀ d r c n m s, g.get? "data" = some (.arr d) → g.get? "row" = some (.nats r) → g.get? "col" = some (.nats c) →
      g.get? "shape" = some (.nats [n, m]) → g.get? "arrtype" = some (.str s) → r.length = d.length → c.length = d.length →
      (∀ i ∈ r, i < n) → (∀ j ∈ c, j < m) → (∀ f : SpFormat, f.label ≠ s) → loadSparray g = .error .attribute) := by
  constructor
  · intro h
    simp only [loadSparray, H5.arr, h]
    rfl
  · intro d r c n m s h1 h2 h3 h4 h5 h6 h7 h8 h9 hs
    have e1 : (r.any fun i => decide (n ≤ i)) = false := by
      rw [any_eq_false]; intro i hi; simpa using h8 i hi
    have e2 : (c.any fun i => decide (m ≤ i)) = false := by
      rw [any_eq_false]; intro i hi; simpa using h9 i hi
    have e3 : cooMatrix d r c [n, m] = .ok ⟨.coo, false, n, m, zip r (zip c d)⟩ := by
      rw [cooMatrix, if_neg (by simp [h6, h7]), e1, e2]
      rfl
    have e4 : ∀ A : SpArray K, cooTo A s = .error .attribute := by
      intro A
      rw [cooTo, if_neg (fun h => hs .coo h.symm)]
      have : ([SpFormat.bsr, .csc, .csr, .dia, .dok, .lil].find? fun f => f.label == s) = none := by
        rw [find?_eq_none]
        intro f _
        simpa using hs f
      rw [this]
    simp only [loadSparray, H5.arr, H5.nats, H5.str, h1, h2, h3, h4, h5, bind, Except.bind, e3, e4]

/-- **C109** (what is loaded belongs to the matrix classes): whatever the class of the saved array was, the class of the
loaded one is `csr_matrix` and so on, not `csr_array`. -/
theorem C109_matrix_class [Add K] (g : H5 K) (B : SpArray K) (h : loadSparray g = .ok B) : B.isArray = false := by
  have hcoo : ∀ (d : List K) (r c sh : List Nat) (A : SpArray K), cooMatrix d r c sh = .ok A → A.isArray = false := by
    intro d r c sh A hA
    unfold cooMatrix at hA
    repeat' split at hA
    all_goals cases hA
    rfl
  simp only [loadSparray, bind, Except.bind] at h
  cases h1 : g.arr "data" with
  | error e => simp only [h1] at h; cases h
  | ok d =>
    simp only [h1] at h
    cases h2 : g.nats "row" with
    | error e => simp only [h2] at h; cases h
    | ok r =>
      simp only [h2] at h
      cases h3 : g.nats "col" with
      | error e => simp only [h3] at h; cases h
      | ok c =>
        simp only [h3] at h
        cases h4 : g.nats "shape" with
        | error e => simp only [h4] at h; cases h
        | ok sh =>
          simp only [h4] at h
          cases h5 : cooMatrix d r c sh with
          | error e => simp only [h5] at h; cases h
          | ok A =>
            simp only [h5] at h
            cases h6 : g.str "arrtype" with
            | error e => simp only [h6] at h; cases h
            | ok l =>
              simp only [h6, cooTo] at h
              have hA := hcoo _ _ _ _ _ h5
              split at h
              · cases h; exact hA
              · split at h
                · cases h
                · cases h; exact hA

/-- The sparse array `[[1, 2], [0, 3]]` as a `csr_array`. -/
def spEx : SpArray ℚ := ⟨.csr, true, 2, 2, [(0, 0, 1), (0, 1, 2), (1, 1, 3)]⟩

/-- The loaded array. -/
def spLoaded : SpArray ℚ := ⟨.csr, false, 2, 2, [(0, 0, 1), (0, 1, 2), (1, 1, 3)]⟩

/-- **C109** (false of the code): a loaded array need not act as the saved one. For `A = csr_array([[1, 2], [0, 3]])`,
`A * A` is the product entry by entry, but for the array loaded from the file it is the matrix product. -/
theorem C109_star_differs : ∃ g, saveSparray (.sparse spEx) = .ok g ∧ loadSparray g = .ok spLoaded ∧
    spEx.star spEx = .ok ⟨2, 2, [[1, 4], [0, 9]]⟩ ∧ spLoaded.star spLoaded = .ok ⟨2, 2, [[1, 8], [0, 9]]⟩ :=
  ⟨_, rfl, by decide +kernel, by decide +kernel, by decide +kernel⟩

/-- **C109** (partial): a loaded array of one of the matrix classes acts as the saved one, also in products with `*`. -/
theorem C109_star_partial [CommSemiring K] (A C : SpArray K) (hA : A.InRange) (hC : C.InRange) (h : A.isArray = false) :
    ∃ g B g' D, saveSparray (.sparse A) = .ok g ∧ loadSparray g = .ok B ∧ saveSparray (.sparse C) = .ok g' ∧
      loadSparray g' = .ok D ∧ B.star D = A.star C := by
  obtain ⟨g, B, a1, a2, a3, a4, a5, -, -, a8, -⟩ := C109_round_trip A hA
  obtain ⟨g', D, b1, b2, b3, b4, b5, -, -, b8, -⟩ := C109_round_trip C hC
  refine ⟨g, B, g', D, a1, a2, b1, b2, ?_⟩
  have hB := C109_matrix_class g B a2
  simp only [SpArray.star, hB, h, a8, b8, a4, a5, b4, b5]

/-! ### Affine operators -/

/-- The term is stored within its shape. -/
def AnyArray.Valid : AnyArray K → Prop
  | .dense _ => True
  | .sparse A => A.InRange

/-- Dense terms are the same; sparse terms have the same format, shape and entries. -/
def AnyArray.Same [AddMonoid K] : AnyArray K → AnyArray K → Prop
  | .dense A, .dense B => A = B
  | .sparse A, .sparse B => A.format = B.format ∧ A.toDense = B.toDense
  | _, _ => False

theorem term_round_trip [AddCommMonoid K] (A : AnyArray K) (hA : A.Valid) :
    ∃ g B, saveTerm A = .ok g ∧ loadTerm g = .ok B ∧ A.Same B := by
  cases A with
  | dense A => exact ⟨_, .dense A, rfl, rfl, rfl⟩
  | sparse A =>
    obtain ⟨g, B, a1, a2, a3, a4, a5, -, -, a8, -⟩ := C109_round_trip A hA
    refine ⟨g, .sparse B, a1, ?_, a3.symm, a8.symm⟩
    have hg : g.get? "dataset" = none := by
      simp only [saveSparray, Except.ok.injEq] at a1
      rw [← a1]
      rfl
    rw [loadTerm, hg, a2]

/-- **C109** (affine operators): the terms of an affine operator, dense or sparse, come back from its file in the same
order with the same entries, so that all weighted sums of the terms are the same. -/
theorem C109_affine [CommSemiring K] (As : List (AnyArray K)) (hA : ∀ A ∈ As, A.Valid) :
    ∃ g Bs, saveTerms As = .ok g ∧ loadTerms g = .ok Bs ∧ Forall₂ AnyArray.Same As Bs ∧
      ∀ th : List K, weightedSum th (Bs.map AnyArray.toMat) = weightedSum th (As.map AnyArray.toMat) := by
  have key : ∃ gs Bs, As.mapM saveTerm = .ok gs ∧ gs.mapM loadTerm = .ok Bs ∧ Forall₂ AnyArray.Same As Bs := by
    induction As with
    | nil => exact ⟨[], [], rfl, rfl, .nil⟩
    | cons A As ih =>
      obtain ⟨g, B, h1, h2, h3⟩ := term_round_trip A (hA A mem_cons_self)
      obtain ⟨gs, Bs, i1, i2, i3⟩ := ih fun A h => hA A (mem_cons_of_mem _ h)
      refine ⟨g :: gs, B :: Bs, ?_, ?_, .cons h3 i3⟩
      · rw [mapM_cons, h1]; simp only [bind, Except.bind, i1]; rfl
      · rw [mapM_cons, h2]; simp only [bind, Except.bind, i2]; rfl
  obtain ⟨gs, Bs, h1, h2, h3⟩ := key
  refine ⟨.node [] gs, Bs, by rw [saveTerms, h1], h2, h3, fun th => ?_⟩
  have : Bs.map AnyArray.toMat = As.map AnyArray.toMat := by
    clear h1 h2 hA
    induction h3 with
    | nil => rfl
    | cons h _ ih =>
      rename_i A B _ _ _
      rw [map_cons, map_cons, ih]
      congr 1
      cases A <;> cases B <;> simp only [AnyArray.Same] at h
      · rw [h]
      · exact h.2.symm
  rw [this]

/-! ### Examples -/

-- the hypotheses of `C109_round_trip`
example : spEx.InRange ∧ spEx.toDense = ⟨2, 2, [[1, 2], [0, 3]]⟩ := by
  constructor
  · unfold SpArray.InRange; decide
  · decide +kernel

-- repeated positions are added up
example : sumDuplicates [(0, 0, (1 : ℚ)), (1, 0, 2), (0, 0, 3)] = [(0, 0, 4), (1, 0, 2)] := by decide +kernel

-- the hypotheses of `C109_affine` with a dense and a sparse term
example : ∃ g Bs, saveTerms [.dense ⟨2, 2, [[1, 1], [0, 1]]⟩, .sparse spEx] = .ok g ∧ loadTerms g = .ok Bs ∧
    weightedSum [2, 3] (Bs.map AnyArray.toMat) = ⟨2, 2, [[5, 8], [0, 11]]⟩ := by
  obtain ⟨g, Bs, h1, h2, -, h4⟩ := C109_affine [.dense ⟨2, 2, [[1, 1], [0, 1]]⟩, .sparse spEx] (by
    intro A hA
    simp only [mem_cons, not_mem_nil, or_false] at hA
    rcases hA with rfl | rfl
    · trivial
    · change spEx.InRange
      unfold SpArray.InRange; decide)
  exact ⟨g, Bs, h1, h2, by rw [h4]; decide +kernel⟩

end Opinf
