import Verif.Props.RomFitOptimal
import Verif.Props.Recover
import Verif.Props.Accessors

/-!
# C108: the result of training depends neither on the order of the snapshots nor on the order of the operators

Specification: permutations of the list of training samples (state, left-hand side, input) and of the list of operators.
-/

namespace Opinf

open List

variable {K : Type}

/-! ### Strict convexity -/

/-- The operators of the model that are learned. -/
def Model.learned {S : Type} (M : Model K S) : List (Op K) := (M.slots.filter Slot.infer).map Slot.op

/-- Squared residuals plus penalty, for an operator matrix. `w` is the contribution of the known operators. -/
def matCost [CommRing K] (pen : List K → K) (xs : List (TrainSample K)) (w : TrainSample K → List K) (kinds : List OpKind)
    (rows : List (List K)) : K :=
  (xs.map fun x => sumSq (vsub x.z (vadd (matVec rows (dataVector kinds x.q (x.u.getD []))) (w x)))).sum +
    (rows.map pen).sum

section

variable [Field K] [LinearOrder K] [IsStrictOrderedRing K]

/-- The middle of two vectors. -/
def middle (a b : List K) : List K := zipWith (fun x y => (x + y) / 2) a b

/-- The penalty is a nonnegative quadratic form on vectors of length `n`. -/
structure Quadratic (n : Nat) (pen : List K → K) : Prop where
  nonneg : ∀ a, 0 ≤ pen a
  parallelogram : ∀ a b : List K, a.length = n → b.length = n →
    pen a + pen b = 2 * pen (middle a b) + 1 / 2 * pen (vsub a b)

theorem sumSq_parallelogram (a b : List K) (h : a.length = b.length) :
    sumSq a + sumSq b = 2 * sumSq (middle a b) + 1 / 2 * sumSq (vsub a b) := by
  induction a generalizing b with
  | nil =>
    obtain rfl := length_eq_zero_iff.1 h.symm
    simp [sumSq, middle, vsub]
  | cons x a ih =>
    cases b with
    | nil => simp at h
    | cons y b =>
      have := ih b (by simpa using h)
      simp only [sumSq, middle, vsub, zipWith_cons_cons, map_cons, sum_cons] at this ⊢
      linear_combination this

theorem quadratic_sumSq (n : Nat) (c : K) : Quadratic n fun a : List K => c ^ 2 * sumSq a := by
  refine ⟨fun a => mul_nonneg (sq_nonneg c) (sumSq_nonneg a), fun a b ha hb => ?_⟩
  have := sumSq_parallelogram a b (by rw [ha, hb])
  linear_combination c ^ 2 * this

theorem matVec_middle (A : List (List K)) (a b : List K) (h : a.length = b.length) :
    matVec A (middle a b) = middle (matVec A a) (matVec A b) := by
  induction A with
  | nil => rfl
  | cons r A ih =>
    simp only [matVec, middle, map_cons, zipWith_cons_cons] at ih ⊢
    rw [ih]
    congr 1
    clear ih
    induction a generalizing b r with
    | nil => cases b <;> simp_all [dot]
    | cons x a ih =>
      cases b with
      | nil => simp at h
      | cons y b =>
        cases r with
        | nil => simp [dot]
        | cons z r =>
          have := ih b (by simpa using h) r
          simp only [dot, zipWith_cons_cons, sum_cons] at this ⊢
          linear_combination this

theorem matVec_vsub' (A : List (List K)) (a b : List K) (h : a.length = b.length) :
    matVec A (vsub a b) = vsub (matVec A a) (matVec A b) := by
  induction A with
  | nil => rfl
  | cons r A ih =>
    simp only [matVec, vsub, map_cons, zipWith_cons_cons] at ih ⊢
    rw [ih]
    congr 1
    clear ih
    induction a generalizing b r with
    | nil => cases b <;> simp_all [dot]
    | cons x a ih =>
      cases b with
      | nil => simp at h
      | cons y b =>
        cases r with
        | nil => simp [dot]
        | cons z r =>
          have := ih b (by simpa using h) r
          simp only [dot, zipWith_cons_cons, sum_cons] at this ⊢
          linear_combination this

theorem quadratic_matVec (n : Nat) (G : List (List K)) : Quadratic n fun a : List K => sumSq (matVec G a) := by
  refine ⟨fun a => sumSq_nonneg _, fun a b ha hb => ?_⟩
  show sumSq (matVec G a) + sumSq (matVec G b) = 2 * sumSq (matVec G (middle a b)) + 1 / 2 * sumSq (matVec G (vsub a b))
  rw [matVec_middle G a b (by rw [ha, hb]), matVec_vsub' G a b (by rw [ha, hb])]
  exact sumSq_parallelogram _ _ (by simp [length_matVec])

theorem zero_of_sum_zero {l : List K} (h : ∀ y ∈ l, 0 ≤ y) (hs : l.sum = 0) : ∀ y ∈ l, y = 0 := by
  induction l with
  | nil => simp
  | cons a l ih =>
    rw [sum_cons] at hs
    have h1 := h a mem_cons_self
    have h2 : 0 ≤ l.sum := List.sum_nonneg fun y hy => h y (mem_cons_of_mem _ hy)
    intro y hy
    rcases mem_cons.1 hy with rfl | hy
    · linarith
    · exact ih (fun y hy => h y (mem_cons_of_mem _ hy)) (by linarith) y hy

/-- Two matrices with the smallest cost agree on the data and have the same penalty-free part. -/
theorem minimisers_agree {pen : List K → K} {n r : Nat} (hp : Quadratic n pen) (xs : List (TrainSample K))
    (w : TrainSample K → List K) (kinds : List OpKind) (hz : ∀ x ∈ xs, x.z.length = r) (hw : ∀ x ∈ xs, (w x).length = r)
    (P Q : List (List K)) (hP : P.length = r) (hQ : Q.length = r) (hPr : ∀ a ∈ P, a.length = n) (hQr : ∀ a ∈ Q, a.length = n)
    (hbest : ∀ R : List (List K), R.length = r → (∀ a ∈ R, a.length = n) →
      matCost pen xs w kinds P ≤ matCost pen xs w kinds R)
    (hsame : matCost pen xs w kinds Q ≤ matCost pen xs w kinds P) :
    (∀ x ∈ xs, matVec P (dataVector kinds x.q (x.u.getD [])) = matVec Q (dataVector kinds x.q (x.u.getD []))) ∧
      ∀ i < r, pen (vsub (P.getD i []) (Q.getD i [])) = 0 := by
  -- the matrix in the middle
  obtain ⟨R, hR⟩ : ∃ R, R = zipWith middle P Q := ⟨_, rfl⟩
  have hRl : R.length = r := by rw [hR, length_zipWith, hP, hQ, min_self]
  have hRr : ∀ a ∈ R, a.length = n := by
    intro a ha
    rw [hR] at ha
    obtain ⟨i, hi, rfl⟩ := getElem_of_mem ha
    have h1 : i < P.length ∧ i < Q.length := by simpa using hi
    simp [middle, hPr _ (getElem_mem h1.1), hQr _ (getElem_mem h1.2)]
  have hmid := hbest R hRl hRr
  have hvec : ∀ v : List K, matVec R v = middle (matVec P v) (matVec Q v) := by
    intro v
    rw [hR]
    clear * - hPr hQr
    induction P generalizing Q with
    | nil => rfl
    | cons a P ih =>
      cases Q with
      | nil => rfl
      | cons b Q =>
        have := ih Q (fun x hx => hPr x (mem_cons_of_mem _ hx)) fun x hx => hQr x (mem_cons_of_mem _ hx)
        simp only [matVec, middle, zipWith_cons_cons, map_cons] at this ⊢
        rw [this]
        congr 1
        have hab : a.length = b.length := by rw [hPr a mem_cons_self, hQr b mem_cons_self]
        clear * - hab
        induction a generalizing b v with
        | nil => cases b <;> simp_all [dot]
        | cons x a ih =>
          cases b with
          | nil => simp at hab
          | cons y b =>
            cases v with
            | nil => simp [dot]
            | cons z v =>
              have := ih v b (by simpa using hab)
              simp only [dot, zipWith_cons_cons, sum_cons] at this ⊢
              linear_combination this
  -- the parallelogram identity for the costs
  have hdata : ∀ l : List (TrainSample K), (∀ x ∈ l, x.z.length = r) → (∀ x ∈ l, (w x).length = r) →
      (l.map fun x => sumSq (vsub x.z (vadd (matVec P (dataVector kinds x.q (x.u.getD []))) (w x)))).sum +
        (l.map fun x => sumSq (vsub x.z (vadd (matVec Q (dataVector kinds x.q (x.u.getD []))) (w x)))).sum =
      2 * (l.map fun x => sumSq (vsub x.z (vadd (matVec R (dataVector kinds x.q (x.u.getD []))) (w x)))).sum +
        1 / 2 * (l.map fun x => sumSq (vsub (matVec P (dataVector kinds x.q (x.u.getD [])))
          (matVec Q (dataVector kinds x.q (x.u.getD []))))).sum := by
    intro l hz hw
    induction l with
    | nil => simp
    | cons x l ih =>
      have h1 := ih (fun y hy => hz y (mem_cons_of_mem _ hy)) fun y hy => hw y (mem_cons_of_mem _ hy)
      simp only [map_cons, sum_cons]
      have hzx := hz x mem_cons_self
      have hwx := hw x mem_cons_self
      have h2 : sumSq (vsub x.z (vadd (matVec P (dataVector kinds x.q (x.u.getD []))) (w x))) +
          sumSq (vsub x.z (vadd (matVec Q (dataVector kinds x.q (x.u.getD []))) (w x))) =
          2 * sumSq (vsub x.z (vadd (matVec R (dataVector kinds x.q (x.u.getD []))) (w x))) +
          1 / 2 * sumSq (vsub (matVec P (dataVector kinds x.q (x.u.getD [])))
            (matVec Q (dataVector kinds x.q (x.u.getD [])))) := by
        rw [hvec]
        have l1 : (matVec P (dataVector kinds x.q (x.u.getD []))).length = r := by rw [length_matVec, hP]
        have l2 : (matVec Q (dataVector kinds x.q (x.u.getD []))).length = r := by rw [length_matVec, hQ]
        generalize matVec P (dataVector kinds x.q (x.u.getD [])) = p at l1 ⊢
        generalize matVec Q (dataVector kinds x.q (x.u.getD [])) = q at l2 ⊢
        generalize x.z = z at hzx ⊢
        generalize w x = v at hwx ⊢
        clear * - l1 l2 hzx hwx
        induction z generalizing p q v r with
        | nil =>
          subst hzx
          simp only [length_nil, length_eq_zero_iff] at l1 l2
          subst l1; subst l2
          simp [sumSq, vsub]
        | cons z zs ih =>
          subst hzx
          cases p with
          | nil => simp at l1
          | cons p ps =>
            cases q with
            | nil => simp at l2
            | cons q qs =>
              cases v with
              | nil => simp at hwx
              | cons v vs =>
                have := ih (r := zs.length) ps (by simpa using l1) qs (by simpa using l2) rfl vs (by simpa using hwx)
                simp only [sumSq, vsub, vadd, middle, zipWith_cons_cons, map_cons, sum_cons] at this ⊢
                linear_combination this
      linear_combination h1 + h2
  have hpen : (P.map pen).sum + (Q.map pen).sum = 2 * (R.map pen).sum +
      1 / 2 * (zipWith (fun a b => pen (vsub a b)) P Q).sum := by
    rw [hR]
    have hl : P.length = Q.length := by rw [hP, hQ]
    clear * - hPr hQr hp hl
    induction P generalizing Q with
    | nil => cases Q <;> simp_all
    | cons a P ih =>
      cases Q with
      | nil => simp at hl
      | cons b Q =>
        have h1 := ih Q (fun x hx => hPr x (mem_cons_of_mem _ hx)) (fun x hx => hQr x (mem_cons_of_mem _ hx)) (by simpa using hl)
        have h2 := hp.parallelogram a b (hPr a mem_cons_self) (hQr b mem_cons_self)
        simp only [map_cons, sum_cons, zipWith_cons_cons]
        linear_combination h1 + h2
  have hd := hdata xs hz hw
  obtain ⟨A, hA⟩ : ∃ A, A = (xs.map fun x => sumSq (vsub (matVec P (dataVector kinds x.q (x.u.getD [])))
          (matVec Q (dataVector kinds x.q (x.u.getD []))))).sum := ⟨_, rfl⟩
  obtain ⟨B, hB⟩ : ∃ B, B = (zipWith (fun a b => pen (vsub a b)) P Q).sum := ⟨_, rfl⟩
  rw [← hA] at hd
  rw [← hB] at hpen
  have hA0 : 0 ≤ A := by
    rw [hA]
    refine List.sum_nonneg fun y hy => ?_
    obtain ⟨x, -, rfl⟩ := mem_map.1 hy
    exact sumSq_nonneg _
  have hzip : ∀ y ∈ zipWith (fun a b => pen (vsub a b)) P Q, 0 ≤ y := by
    intro y hy
    obtain ⟨i, hi, rfl⟩ := getElem_of_mem hy
    rw [getElem_zipWith]
    exact hp.nonneg _
  have hB0 : 0 ≤ B := by rw [hB]; exact List.sum_nonneg hzip
  simp only [matCost] at hmid hsame
  have hAB : A = 0 ∧ B = 0 := by constructor <;> linarith
  constructor
  · intro x hx
    have h0 : sumSq (vsub (matVec P (dataVector kinds x.q (x.u.getD []))) (matVec Q (dataVector kinds x.q (x.u.getD [])))) = 0 := by
      have hall := zero_of_sum_zero (l := xs.map fun x => sumSq (vsub (matVec P (dataVector kinds x.q (x.u.getD [])))
          (matVec Q (dataVector kinds x.q (x.u.getD []))))) (fun y hy => by
            obtain ⟨x, -, rfl⟩ := mem_map.1 hy
            exact sumSq_nonneg _) (by rw [← hA]; exact hAB.1)
      exact hall _ (mem_map.2 ⟨x, hx, rfl⟩)
    exact vsub_zero_mem (by simp [length_matVec, hP, hQ]) (by
      rw [sumSq_eq_zero _ h0]
      exact fun y hy => (mem_replicate.1 hy).2)
  · intro i hi
    have hall := zero_of_sum_zero hzip (by rw [← hB]; exact hAB.2)
    have h1 : i < (zipWith (fun a b => pen (vsub a b)) P Q).length := by simp [hP, hQ, hi]
    have := hall _ (getElem_mem h1)
    rw [getElem_zipWith] at this
    rwa [Opinf.getD_eq_getElem P [] (by omega), Opinf.getD_eq_getElem Q [] (by omega)]

/-! ### The operators as a list -/

omit [LinearOrder K] [IsStrictOrderedRing K] in
theorem rhsVal_perm {L L' : List (Op K)} (h : L.Perm L') (r : Nat) (q : List K) (u : Option (List K)) :
    rhsVal L r q u = rhsVal L' r q u := sumTerms_perm (h.map _) _

omit [LinearOrder K] [IsStrictOrderedRing K] in
theorem sumSq_flatMap {α : Type} (l : List α) (f : α → List K) : sumSq (l.flatMap f) = (l.map fun a => sumSq (f a)).sum := by
  induction l with
  | nil => simp [sumSq]
  | cons a l ih => rw [flatMap_cons, sumSq_append, ih, map_cons, sum_cons]

omit [LinearOrder K] [IsStrictOrderedRing K] in
/-- The cost of the matrix of a list of operators, in terms of the operators. -/
theorem matCost_stack (c : K) (xs : List (TrainSample K)) (w : TrainSample K → List K) (L : List (Op K)) (r m : Nat)
    (hc : ∀ o ∈ L, o.Cal r m) (hq : ∀ x ∈ xs, x.q.length = r) (hu : ∀ x ∈ xs, ∀ o ∈ L, InputOK o.kind m x.u) :
    matCost (fun a => c ^ 2 * sumSq a) xs w (L.map Op.kind) (stackRows L r) =
      (xs.map fun x => sumSq (vsub x.z (vadd (rhsVal L r x.q x.u) (w x)))).sum +
        ((range r).map fun i => c ^ 2 * (L.map fun o => sumSq (o.rowsOf.getD i [])).sum).sum := by
  rw [matCost]
  congr 1
  · congr 1
    refine map_congr_left fun x hx => ?_
    rw [rhsVal_stack hc x.q x.u (hq x hx) (hu x hx)]
  · rw [stackRows, map_map]
    congr 1
    refine map_congr_left fun i _ => ?_
    simp only [Function.comp_apply, sumSq_flatMap]

omit [LinearOrder K] [IsStrictOrderedRing K] in
theorem matCost_perm (c : K) (xs ys : List (TrainSample K)) (w w' : TrainSample K → List K) (L L' : List (Op K)) (r m : Nat)
    (hc : ∀ o ∈ L, o.Cal r m) (hq : ∀ x ∈ xs, x.q.length = r) (hu : ∀ x ∈ xs, ∀ o ∈ L, InputOK o.kind m x.u)
    (hxs : xs.Perm ys) (hL : L.Perm L') (hw : ∀ x ∈ xs, w x = w' x) :
    matCost (fun a => c ^ 2 * sumSq a) xs w (L.map Op.kind) (stackRows L r) =
      matCost (fun a => c ^ 2 * sumSq a) ys w' (L'.map Op.kind) (stackRows L' r) := by
  rw [matCost_stack c xs w L r m hc hq hu, matCost_stack c ys w' L' r m (fun o ho => hc o (hL.mem_iff.2 ho))
    (fun x hx => hq x (hxs.mem_iff.2 hx)) fun x hx o ho => hu x (hxs.mem_iff.2 hx) o (hL.mem_iff.2 ho)]
  congr 1
  · rw [map_congr_left (g := fun x => sumSq (vsub x.z (vadd (rhsVal L' r x.q x.u) (w' x))))
      fun x hx => by rw [rhsVal_perm hL, hw x hx]]
    exact (hxs.map _).sum_eq
  · congr 1
    refine map_congr_left fun i _ => ?_
    rw [(hL.map _).sum_eq]

/-- A step of training: the same classes, and the known operators are kept. -/
def TrainStep (s s' : Slot K) : Prop := s'.infer = s.infer ∧ s'.op.kind = s.op.kind ∧ (s.infer = false → s' = s)

omit [Field K] [LinearOrder K] [IsStrictOrderedRing K] in
theorem trainStep_known {l l' : List (Slot K)} (h : Forall₂ TrainStep l l') :
    l'.filter (fun s => !s.infer) = l.filter (fun s => !s.infer) ∧
      ((l'.filter Slot.infer).map Slot.op).map Op.kind = (l.filter Slot.infer).map fun s => s.op.kind := by
  induction h with
  | nil => exact ⟨rfl, rfl⟩
  | @cons a b l l' hab _ ih =>
    obtain ⟨h1, h2, h3⟩ := hab
    cases hi : a.infer
    · rw [hi] at h1
      rw [filter_cons_of_pos (by simp [h1]), filter_cons_of_pos (by simp [hi]), filter_cons_of_neg (by simp [h1]),
        filter_cons_of_neg (by simp [hi]), h3 hi, ih.1]
      exact ⟨rfl, ih.2⟩
    · rw [hi] at h1
      rw [filter_cons_of_neg (by simp [h1]), filter_cons_of_neg (by simp [hi]), filter_cons_of_pos (by simp [h1]),
        filter_cons_of_pos (by simp [hi]), map_cons, map_cons, map_cons, ih.2, h2]
      exact ⟨ih.1, rfl⟩

omit [LinearOrder K] [IsStrictOrderedRing K] in
/-- The operator matrix of a trained model. -/
theorem operatorMatrix_stack {S : Type} {M : Model K S} {O : Mat K} {r m : Nat} (h : M.operatorMatrix = .ok O)
    (hc : ∀ o ∈ M.learned, o.Cal r m) :
    O.nrows = r ∧ O.ncols = (M.learned.map fun o => o.kind.dim r m).sum ∧ O.rows = stackRows M.learned r := by
  rw [Model.operatorMatrix] at h
  cases ht : M.checkTrained with
  | error e => rw [ht] at h; cases h
  | ok _ =>
    rw [ht] at h
    simp only [bind, Except.bind] at h
    have hes : (M.slots.filter Slot.infer).filterMap (fun s => s.op.entries) = M.learned.filterMap Op.entries := by
      rw [Model.learned, filterMap_map]; rfl
    rw [hes] at h
    generalize M.learned = L at hc h ⊢
    have key : ∀ L : List (Op K), (∀ o ∈ L, o.Cal r m) →
        (∀ E ∈ L.filterMap Op.entries, E.nrows = r) ∧
        ((L.filterMap Op.entries).map Mat.ncols).sum = (L.map fun o => o.kind.dim r m).sum ∧
        hstack r ((L.filterMap Op.entries).map Mat.rows) = stackRows L r := by
      intro L hc
      have hmap : L.filterMap Op.entries = L.map fun o => o.entries.getD ⟨0, 0, []⟩ := by
        clear h
        induction L with
        | nil => rfl
        | cons o L ih =>
          obtain ⟨E, hE, -⟩ := hc o mem_cons_self
          rw [filterMap_cons, hE, map_cons, hE, ih fun o ho => hc o (mem_cons_of_mem _ ho)]
          rfl
      rw [hmap]
      refine ⟨?_, ?_, ?_⟩
      · intro E hE
        obtain ⟨o, ho, rfl⟩ := mem_map.1 hE
        obtain ⟨E, hE, h1, h2, h3⟩ := hc o ho
        rw [hE]
        exact h2
      · rw [map_map]
        congr 1
        refine map_congr_left fun o ho => ?_
        obtain ⟨E, hE, h1, h2, h3⟩ := hc o ho
        simp only [Function.comp_apply, hE, Option.getD_some, h3]
      · have := hstack_map (range r) (L.map fun o i => o.rowsOf.getD i [])
        rw [length_range, map_map] at this
        rw [stackRows, map_map]
        simp only [flatMap_map] at this
        rw [← this]
        congr 1
        refine map_congr_left fun o ho => ?_
        obtain ⟨E, hE, h1, h2, h3⟩ := hc o ho
        simp only [Function.comp_apply, hE, Option.getD_some, Op.rowsOf, Option.elim_some]
        refine ext_getElem (by simp [h1.1, h2]) fun i i1 i2 => ?_
        simp only [getElem_map, getElem_range]
        rw [Opinf.getD_eq_getElem E.rows [] i1]
    obtain ⟨k1, k2, k3⟩ := key L hc
    generalize L.filterMap Op.entries = Es at h k1 k2 k3
    cases Es with
    | nil => cases h
    | cons E Es =>
      simp only [pure, Except.pure, Except.ok.injEq] at h
      subst h
      have := k1 E mem_cons_self
      refine ⟨this, k2, ?_⟩
      rw [← k3, ← this]

/-- The data vectors at the samples determine the operators: no nonzero linear functional vanishes at all of them. -/
def Determines [CommSemiring K] (kinds : List OpKind) (d : Nat) (xs : List (TrainSample K)) : Prop :=
  ∀ v : List K, v.length = d → (∀ x ∈ xs, dot v (dataVector kinds x.q (x.u.getD [])) = 0) → ∀ y ∈ v, y = 0

/-- What the training of one model says about the operators that were learned. -/
theorem train_one {T : Type} {pen : List K → K} {r m : Nat} (M M' : Model K T) (zs : List (TrainSample K)) (O : Mat K)
    (h : TrainedOptimally M M' zs (fun O => (O.rows.map pen).sum) O) (hst : Forall₂ TrainStep M.slots M'.slots)
    (hc : ∀ o ∈ M'.ops, o.Cal r m) (hq : ∀ x ∈ zs, x.q.length = r) (hu : ∀ x ∈ zs, ∀ o ∈ M.ops, InputOK o.kind m x.u) :
    (∀ o ∈ M'.learned, o.Cal r m) ∧ M'.learned.map Op.kind = M.toInfer ∧
      (∀ x ∈ zs, ∀ o ∈ M'.learned, InputOK o.kind m x.u) ∧
      (∀ x ∈ zs, M'.rhs x.q x.u = .ok (vadd (rhsVal M'.learned r x.q x.u) (M.knownPart.value x.q x.u)) ∧
        (M.knownPart.value x.q x.u).length = r ∧ M.knownPart.value x.q x.u = rhsVal M.knownPart.ops r x.q x.u) ∧
      ∀ R : List (List K), R.length = r → (∀ a ∈ R, a.length = (M.toInfer.map fun o => o.dim r m).sum) →
        matCost pen zs (fun x => M.knownPart.value x.q x.u) M.toInfer (stackRows M'.learned r) ≤
          matCost pen zs (fun x => M.knownPart.value x.q x.u) M.toInfer R := by
  obtain ⟨kn, kd⟩ := trainStep_known hst
  have hcl : ∀ o ∈ M'.learned, o.Cal r m := by
    intro o ho
    obtain ⟨s, hs, rfl⟩ := mem_map.1 ho
    exact hc _ (mem_map.2 ⟨s, (mem_filter.1 hs).1, rfl⟩)
  have hin : ∀ x ∈ zs, ∀ o ∈ M'.ops, InputOK o.kind m x.u := by
    intro x hx o ho
    obtain ⟨s', hs', rfl⟩ := mem_map.1 ho
    obtain ⟨s, hs, hss⟩ := forall₂_mem_right hst hs'
    rw [hss.2.1]
    exact hu x hx _ (mem_map.2 ⟨s, hs, rfl⟩)
  have hinl : ∀ x ∈ zs, ∀ o ∈ M'.learned, InputOK o.kind m x.u := by
    intro x hx o ho
    obtain ⟨s, hs, rfl⟩ := mem_map.1 ho
    exact hin x hx _ (mem_map.2 ⟨s, (mem_filter.1 hs).1, rfl⟩)
  have hkn : M.knownPart.ops = (M'.slots.filter fun s => !s.infer).map Slot.op := by
    rw [kn]; rfl
  have hck : ∀ o ∈ M.knownPart.ops, o.Cal r m := by
    intro o ho
    rw [hkn] at ho
    obtain ⟨s, hs, rfl⟩ := mem_map.1 ho
    exact hc _ (mem_map.2 ⟨s, (mem_filter.1 hs).1, rfl⟩)
  have hval : ∀ x ∈ zs, M'.rhs x.q x.u = .ok (vadd (rhsVal M'.learned r x.q x.u) (M.knownPart.value x.q x.u)) ∧
      (M.knownPart.value x.q x.u).length = r ∧ M.knownPart.value x.q x.u = rhsVal M.knownPart.ops r x.q x.u := by
    intro x hx
    have hk : M.knownPart.rhs x.q x.u = .ok (rhsVal M.knownPart.ops r x.q x.u) := by
      refine rhs_eq _ r m hck x.q x.u (hq x hx) fun o ho => ?_
      rw [hkn] at ho
      obtain ⟨s, hs, rfl⟩ := mem_map.1 ho
      exact hin x hx _ (mem_map.2 ⟨s, (mem_filter.1 hs).1, rfl⟩)
    rw [value_of hk]
    refine ⟨?_, length_rhsVal _ r m hck _ _, rfl⟩
    rw [rhs_eq M' r m hc x.q x.u (hq x hx) (hin x hx), hkn]
    congr 1
    exact rhsVal_split (m := m) M'.slots (fun s hs => hc _ (mem_map.2 ⟨s, hs, rfl⟩)) x.q x.u
  refine ⟨hcl, kd, hinl, hval, fun R hR hRr => ?_⟩
  obtain ⟨o1, o2, o3⟩ := operatorMatrix_stack h.opMatrix hcl
  have hdim : (M'.learned.map fun o => o.kind.dim r m).sum = (M.toInfer.map fun o => o.dim r m).sum := by
    rw [← show M'.learned.map Op.kind = M.toInfer from kd, map_map]; rfl
  have := h.optimal ⟨r, (M.toInfer.map fun o => o.dim r m).sum, R⟩ ⟨hR, hRr⟩ o1.symm (by rw [o2, hdim])
  have e1 : (zs.map fun x => sumSq (vsub x.z (M'.value x.q x.u))).sum + (O.rows.map pen).sum =
      matCost pen zs (fun x => M.knownPart.value x.q x.u) M.toInfer (stackRows M'.learned r) := by
    rw [matCost, o3]
    congr 2
    refine map_congr_left fun x hx => ?_
    rw [value_of (hval x hx).1, rhsVal_stack hcl x.q x.u (hq x hx) (hinl x hx),
      show M'.learned.map Op.kind = M.toInfer from kd]
  rw [e1] at this
  refine this.trans (le_of_eq ?_)
  rfl

theorem stack_shape {r m : Nat} (L : List (Op K)) (k : List OpKind) (hL : ∀ o ∈ L, o.Cal r m) (hk : L.map Op.kind = k) :
    (stackRows L r).length = r ∧ ∀ a ∈ stackRows L r, a.length = (k.map fun o => o.dim r m).sum := by
  obtain ⟨h1, h2⟩ := stackRows_wf hL
  refine ⟨h1, fun a ha => ?_⟩
  rw [h2 a ha, ← hk, map_map]
  rfl

/-- The penalty vanishes only at zero. -/
def Definite (n : Nat) (pen : List K → K) : Prop := ∀ v : List K, v.length = n → pen v = 0 → ∀ y ∈ v, y = 0

/-- Operators that agree on the data, with a definite penalty or data that determine them, are equal. -/
theorem learned_eq {r m : Nat} {pen : List K → K} (L L' : List (Op K)) (kinds : List OpKind) (xs : List (TrainSample K))
    (hL : ∀ o ∈ L, o.Cal r m) (hL' : ∀ o ∈ L', o.Cal r m) (hk : L.map Op.kind = kinds) (hk' : L'.map Op.kind = kinds)
    (s1 : ∀ x ∈ xs, matVec (stackRows L r) (dataVector kinds x.q (x.u.getD [])) =
      matVec (stackRows L' r) (dataVector kinds x.q (x.u.getD [])))
    (s2 : ∀ i < r, pen (vsub ((stackRows L r).getD i []) ((stackRows L' r).getD i [])) = 0)
    (hdet : Definite (kinds.map fun o => o.dim r m).sum pen ∨ Determines kinds (kinds.map fun o => o.dim r m).sum xs) :
    L = L' := by
  have hrow : ∀ L : List (Op K), ∀ i < r, (stackRows L r).getD i [] = L.flatMap fun o => o.rowsOf.getD i [] := by
    intro L i hi
    rw [stackRows, Opinf.getD_eq_getElem _ [] (by simpa using hi)]
    simp
  refine stackRows_inj hL hL' (hk.trans hk'.symm) fun i hi => ?_
  have hl1 := stackRow_length L hL hi
  have hl2 := stackRow_length L' hL' hi
  have e1 : (L.map fun o => o.kind.dim r m).sum = (kinds.map fun o => o.dim r m).sum := by
    rw [← hk, map_map]; rfl
  have e2 : (L'.map fun o => o.kind.dim r m).sum = (kinds.map fun o => o.dim r m).sum := by
    rw [← hk', map_map]; rfl
  refine vsub_zero_mem (by rw [hl1, hl2, e1, e2]) ?_
  have hlen : (vsub ((stackRows L r).getD i []) ((stackRows L' r).getD i [])).length =
      (kinds.map fun o => o.dim r m).sum := by
    rw [length_vsub, hrow _ i hi, hrow _ i hi, hl1, hl2, e1, e2, min_self]
  rw [← hrow _ i hi, ← hrow _ i hi]
  rcases hdet with hc | hdet
  · exact hc _ hlen (s2 i hi)
  · refine hdet _ hlen fun x hx => ?_
    have h1 := congrArg (fun l => l.getD i 0) (s1 x hx)
    have hdot : ∀ a b v : List K, a.length = b.length → dot (vsub a b) v = dot a v - dot b v := by
      intro a
      induction a with
      | nil => intro b v hb; obtain rfl := length_eq_zero_iff.1 hb.symm; simp [dot, vsub]
      | cons a as ih =>
        intro b v hb
        cases b with
        | nil => simp at hb
        | cons b bs =>
          cases v with
          | nil => simp [dot]
          | cons v vs =>
            have := ih bs vs (by simpa using hb)
            simp only [dot, vsub, zipWith_cons_cons, sum_cons] at this ⊢
            linear_combination this
    rw [hdot _ _ _ (by rw [hrow _ i hi, hrow _ i hi, hl1, hl2, e1, e2])]
    have hg : ∀ L : List (Op K), (matVec (stackRows L r) (dataVector kinds x.q (x.u.getD []))).getD i 0 =
        dot ((stackRows L r).getD i []) (dataVector kinds x.q (x.u.getD [])) := by
      intro L
      rw [Opinf.getD_eq_getElem (matVec _ _) 0 (by rw [length_matVec]; simpa [stackRows] using hi),
        Opinf.getD_eq_getElem (stackRows L r) [] (by simpa [stackRows] using hi)]
      simp [matVec]
    try simp only at h1
    rw [hg, hg] at h1
    rw [h1, sub_self]

/-- Training from the same slots with the same learned operators. -/
theorem trained_slots_eq {l a b : List (Slot K)} (ha : Forall₂ TrainStep l a) (hb : Forall₂ TrainStep l b)
    (h : (a.filter Slot.infer).map Slot.op = (b.filter Slot.infer).map Slot.op) : a = b := by
  induction ha generalizing b with
  | nil => cases hb; rfl
  | cons h1 _ ih =>
    rename_i s s1 l l1 _
    cases hb with
    | cons h2 hb =>
      rename_i s2 l2
      obtain ⟨i1, -, k1⟩ := h1
      obtain ⟨i2, -, k2⟩ := h2
      cases hi : s.infer
      · rw [hi] at i1 i2
        rw [filter_cons, filter_cons, i1, i2] at h
        simp only [Bool.false_eq_true, if_false] at h
        rw [k1 hi, k2 hi, ih hb h]
      · rw [hi] at i1 i2
        rw [filter_cons, filter_cons, i1, i2] at h
        simp only [if_true, map_cons, cons.injEq] at h
        obtain ⟨h3, h4⟩ := h
        rw [ih hb h4]
        cases s1
        cases s2
        simp_all

theorem order_core {S S' : Type} (M₁ M₁' : Model K S) (M₂ M₂' : Model K S') (r m : Nat) (xs ys : List (TrainSample K)) (c : K)
    (O₁ O₂ : Mat K) (h₁ : TrainedOptimally M₁ M₁' xs (fun O => c ^ 2 * (O.rows.map sumSq).sum) O₁)
    (h₂ : TrainedOptimally M₂ M₂' ys (fun O => c ^ 2 * (O.rows.map sumSq).sum) O₂)
    (hslots : M₁.slots.Perm M₂.slots) (hxs : xs.Perm ys)
    (hst₁ : Forall₂ TrainStep M₁.slots M₁'.slots) (hst₂ : Forall₂ TrainStep M₂.slots M₂'.slots)
    (hc₁ : ∀ o ∈ M₁'.ops, o.Cal r m) (hc₂ : ∀ o ∈ M₂'.ops, o.Cal r m)
    (hq : ∀ x ∈ xs, x.q.length = r) (hz : ∀ x ∈ xs, x.z.length = r)
    (hu : ∀ x ∈ xs, ∀ o ∈ M₁.ops, InputOK o.kind m x.u) :
    (∀ x ∈ xs, M₁'.rhs x.q x.u = M₂'.rhs x.q x.u) ∧
      (c ≠ 0 ∨ Determines M₁.toInfer (M₁.toInfer.map fun o => o.dim r m).sum xs → M₁'.slots.Perm M₂'.slots) := by
  -- the known operators
  obtain ⟨kn₁, kd₁⟩ := trainStep_known hst₁
  obtain ⟨kn₂, kd₂⟩ := trainStep_known hst₂
  have hu₂ : ∀ x ∈ ys, ∀ o ∈ M₂.ops, InputOK o.kind m x.u := fun x hx o ho =>
    hu x (hxs.mem_iff.2 hx) o ((hslots.map Slot.op).mem_iff.2 ho)
  have hq₂ : ∀ x ∈ ys, x.q.length = r := fun x hx => hq x (hxs.mem_iff.2 hx)
  have hpen : (fun O : Mat K => c ^ 2 * (O.rows.map sumSq).sum) = fun O => (O.rows.map fun a => c ^ 2 * sumSq a).sum := by
    funext O
    rw [List.sum_map_mul_left]
  have h₁' := h₁
  have h₂' := h₂
  rw [hpen] at h₁' h₂'
  obtain ⟨a1, a2, a3, a4, a5⟩ := train_one M₁ M₁' xs O₁ h₁' hst₁ hc₁ hq hu
  obtain ⟨b1, b2, b3, b4, b5⟩ := train_one M₂ M₂' ys O₂ h₂' hst₂ hc₂ hq₂ hu₂
  -- the known operators contribute the same
  have hw : ∀ x ∈ xs, M₁.knownPart.value x.q x.u = M₂.knownPart.value x.q x.u := by
    intro x hx
    rw [(a4 x hx).2.2, (b4 x (hxs.mem_iff.1 hx)).2.2]
    exact rhsVal_perm ((hslots.filter _).map _) r x.q x.u
  -- the operators of one model in the order of the other
  have hkinds : M₁.toInfer.Perm M₂.toInfer := (hslots.filter _).map _
  have reorder : ∀ (k k' : List OpKind) (L : List (Op K)), k.Perm k' → L.map Op.kind = k' →
      ∃ L' : List (Op K), L'.map Op.kind = k ∧ L'.Perm L := by
    intro k k' L hp hL
    have hF : Forall₂ (fun a (o : Op K) => o.kind = a) k' L := by
      rw [← hL, forall₂_map_left_iff]
      exact forall₂_same.2 fun _ _ => rfl
    obtain ⟨L', h1, h2⟩ := perm_comp_forall₂ hp hF
    refine ⟨L', ?_, h2⟩
    clear * - h1
    induction h1 with
    | nil => rfl
    | cons h _ ih => rw [map_cons, ih, h]
  obtain ⟨L₂, p1, p2⟩ := reorder M₁.toInfer M₂.toInfer M₂'.learned hkinds b2
  obtain ⟨L₁, p3, p4⟩ := reorder M₂.toInfer M₁.toInfer M₁'.learned hkinds.symm a2
  have cL₂ : ∀ o ∈ L₂, o.Cal r m := fun o ho => b1 o (p2.mem_iff.1 ho)
  have cL₁ : ∀ o ∈ L₁, o.Cal r m := fun o ho => a1 o (p4.mem_iff.1 ho)
  have iL₂ : ∀ x ∈ xs, ∀ o ∈ L₂, InputOK o.kind m x.u := fun x hx o ho =>
    b3 x (hxs.mem_iff.1 hx) o (p2.mem_iff.1 ho)
  have e1 := matCost_perm c xs ys (fun x => M₁.knownPart.value x.q x.u) (fun x => M₂.knownPart.value x.q x.u) L₂ M₂'.learned r m
    cL₂ hq iL₂ hxs p2 hw
  have e2 := matCost_perm c xs ys (fun x => M₁.knownPart.value x.q x.u) (fun x => M₂.knownPart.value x.q x.u) M₁'.learned L₁ r m
    a1 hq a3 hxs p4.symm hw
  rw [p1, b2] at e1
  rw [a2, p3] at e2
  have hle := b5 (stackRows L₁ r) (stack_shape L₁ _ cL₁ p3).1 (stack_shape L₁ _ cL₁ p3).2
  rw [← e1, ← e2] at hle
  obtain ⟨s1, s2⟩ := minimisers_agree (quadratic_sumSq _ c) xs (fun x => M₁.knownPart.value x.q x.u) M₁.toInfer hz
    (fun x hx => (a4 x hx).2.1) (stackRows M₁'.learned r) (stackRows L₂ r) (stack_shape _ _ a1 a2).1 (stack_shape _ _ cL₂ p1).1
    (stack_shape _ _ a1 a2).2 (stack_shape _ _ cL₂ p1).2 a5 hle
  constructor
  · intro x hx
    rw [(a4 x hx).1, (b4 x (hxs.mem_iff.1 hx)).1, ← hw x hx]
    congr 2
    rw [← rhsVal_perm p2, rhsVal_stack a1 x.q x.u (hq x hx) (a3 x hx), rhsVal_stack cL₂ x.q x.u (hq x hx) (iL₂ x hx), a2, p1]
    exact s1 x hx
  · intro hdet
    have hL : M₁'.learned = L₂ := by
      refine learned_eq (pen := fun a => c ^ 2 * sumSq a) _ _ M₁.toInfer xs a1 cL₂ a2 p1 s1 s2
        (hdet.imp (fun hc v _ hv => ?_) id)
      have h0 : sumSq v = 0 := by
        rcases mul_eq_zero.1 hv with h | h
        · exact absurd (pow_eq_zero_iff (by norm_num) |>.1 h) hc
        · exact h
      rw [sumSq_eq_zero _ h0]
      exact fun y hy => (mem_replicate.1 hy).2
    have hsl : ∀ {T : Type} (M : Model K T), M.slots.filter Slot.infer = M.learned.map fun o => ⟨o, true⟩ := by
      intro T M
      rw [Model.learned, map_map]
      symm
      conv_rhs => rw [← map_id (M.slots.filter Slot.infer)]
      refine map_congr_left fun s hs => ?_
      have := (mem_filter.1 hs).2
      cases s
      simp_all
    have q1 : (M₁'.slots.filter Slot.infer).Perm (M₂'.slots.filter Slot.infer) := by
      rw [hsl, hsl, hL]
      exact p2.map _
    have q2 : (M₁'.slots.filter fun s => !s.infer).Perm (M₂'.slots.filter fun s => !s.infer) := by
      rw [kn₁, kn₂]
      exact hslots.filter _
    exact ((filter_append_perm Slot.infer M₁'.slots).symm.trans (q1.append q2)).trans (filter_append_perm Slot.infer M₂'.slots)

/-- The order of the samples for a general penalty. -/
theorem samples_core {S : Type} {pen : List K → K} (M M₁' M₂' : Model K S) (r m : Nat) (xs ys : List (TrainSample K))
    (hpen : Quadratic (M.toInfer.map fun o => o.dim r m).sum pen)
    (O₁ O₂ : Mat K) (h₁ : TrainedOptimally M M₁' xs (fun O => (O.rows.map pen).sum) O₁)
    (h₂ : TrainedOptimally M M₂' ys (fun O => (O.rows.map pen).sum) O₂) (hxs : xs.Perm ys)
    (hst₁ : Forall₂ TrainStep M.slots M₁'.slots) (hst₂ : Forall₂ TrainStep M.slots M₂'.slots)
    (hc₁ : ∀ o ∈ M₁'.ops, o.Cal r m) (hc₂ : ∀ o ∈ M₂'.ops, o.Cal r m)
    (hq : ∀ x ∈ xs, x.q.length = r) (hz : ∀ x ∈ xs, x.z.length = r)
    (hu : ∀ x ∈ xs, ∀ o ∈ M.ops, InputOK o.kind m x.u) :
    (∀ x ∈ xs, M₁'.rhs x.q x.u = M₂'.rhs x.q x.u) ∧
      (Definite (M.toInfer.map fun o => o.dim r m).sum pen ∨
        Determines M.toInfer (M.toInfer.map fun o => o.dim r m).sum xs → M₁'.slots = M₂'.slots) := by
  obtain ⟨a1, a2, a3, a4, a5⟩ := train_one M M₁' xs O₁ h₁ hst₁ hc₁ hq hu
  obtain ⟨b1, b2, b3, b4, b5⟩ := train_one M M₂' ys O₂ h₂ hst₂ hc₂ (fun x hx => hq x (hxs.mem_iff.2 hx))
    fun x hx => hu x (hxs.mem_iff.2 hx)
  have hcost : ∀ R, matCost pen ys (fun x => M.knownPart.value x.q x.u) M.toInfer R =
      matCost pen xs (fun x => M.knownPart.value x.q x.u) M.toInfer R := by
    intro R
    rw [matCost, matCost, (hxs.map _).sum_eq]
  have hle := b5 (stackRows M₁'.learned r) (stack_shape _ _ a1 a2).1 (stack_shape _ _ a1 a2).2
  rw [hcost, hcost] at hle
  obtain ⟨s1, s2⟩ := minimisers_agree hpen xs (fun x => M.knownPart.value x.q x.u) M.toInfer hz
    (fun x hx => (a4 x hx).2.1) (stackRows M₁'.learned r) (stackRows M₂'.learned r) (stack_shape _ _ a1 a2).1
    (stack_shape _ _ b1 b2).1 (stack_shape _ _ a1 a2).2 (stack_shape _ _ b1 b2).2 a5 hle
  constructor
  · intro x hx
    rw [(a4 x hx).1, (b4 x (hxs.mem_iff.1 hx)).1]
    congr 2
    rw [rhsVal_stack a1 x.q x.u (hq x hx) (a3 x hx), rhsVal_stack b1 x.q x.u (hq x hx) (b3 x (hxs.mem_iff.1 hx)), a2, b2]
    exact s1 x hx
  · intro hdet
    exact trained_slots_eq hst₁ hst₂ (learned_eq _ _ M.toInfer xs a1 b1 a2 b2 s1 s2 hdet)

/-! ### The data of a training -/

/-- The samples of a successful training have the dimensions of the model. -/
theorem fit_facts {S : Type} (I : SolverI K S) (M : Model K S) (hM : M.Inv) (hint : M.intrusive = false)
    (states lhs : Arg K) (inputs : Option (Arg K)) (hs : states.WF) (hl : lhs.WF) (hin : ∀ a ∈ inputs, a.WF)
    (hr : 0 < (atleast2d states).1) (hI : I.Shaped (atleast2d states).1) (M' : Model K S)
    (hfit : M.fit I states lhs inputs = (M', .ok ())) (m : Nat) (hm : ∀ a ∈ inputs, (atleast2d a).1 = m) :
    Forall₂ TrainStep M.slots M'.slots ∧ (∀ o ∈ M'.ops, o.Cal (atleast2d states).1 m) ∧
      ∀ x ∈ argSamples states lhs inputs, x.q.length = (atleast2d states).1 ∧ x.z.length = (atleast2d states).1 ∧
        ∀ o ∈ M.ops, InputOK o.kind m x.u := by
  have hstep := fit_slots I M hM hint states lhs inputs hs hl hin hr hI M' hfit
  obtain ⟨m', htr, hm'⟩ := C20_fit_trains I M hM hint states lhs inputs hs hl hin hr hI M' hfit
  obtain ⟨s, M1, Z, D, P, m2, f1, f2, f3, f4, f5, f6, f7, f8, f9, f10, f11, f12, f13, f14, f15, f16,
    f17, f18, f19, f20, f21⟩ := fit_master I M hM hint states lhs inputs hs hl hin hI M' hfit
  have hlhs : (atleast2d lhs).1 = (atleast2d states).1 ∧
      (atleast2d lhs).2.length = (atleast2d states).2.length := by
    rw [Model.fit, if_neg (by simp [hint]), Model.fitSolver] at hfit
    generalize hp : M.processFitArgs states lhs inputs = p at hfit
    obtain ⟨M1, x⟩ := p
    cases x with
    | error e => simp at hfit
    | ok t =>
      obtain ⟨Q, Z, U⟩ := t
      obtain ⟨-, hproc⟩ := process_spec hp
      obtain ⟨-, p2, p3, p4, -⟩ := hproc Q Z U rfl
      exact ⟨p3, by rw [p4, p2]⟩
  have hkind : ∀ o : OpKind, o ∈ M.ops.map Op.kind → o.hasInputs = true → M.hasInputs = true := by
    intro o ho hoi
    obtain ⟨o', ho', rfl⟩ := mem_map.1 ho
    rw [hM.inputs, any_eq_true]
    exact ⟨o', ho', hoi⟩
  have hM'k : M'.ops.map Op.kind = M.ops.map Op.kind := by
    rw [Model.ops, Model.ops]
    generalize M.slots = l at hstep
    generalize M'.slots = l' at hstep
    clear * - hstep
    induction hstep with
    | nil => rfl
    | cons hab _ ih => rw [map_cons, map_cons, map_cons, map_cons, ih, hab.2.1]
  have hM1k : M1.ops.map Op.kind = M.ops.map Op.kind := by
    rw [Model.ops, f2]
    exact clearSlots_kinds _
  have heq : M.hasInputs = true → m' = m := by
    intro h
    obtain ⟨a, ha, e⟩ := hm' h
    rw [← e]
    exact hm a (by rw [ha]; rfl)
  have heq2 : M.hasInputs = true → m2 = m := by
    intro h
    obtain ⟨a, ha, e⟩ := f7 h
    rw [← e]
    exact hm a (by rw [ha]; rfl)
  refine ⟨hstep, ?_, ?_⟩
  · intro o ho
    have h1 := htr.cal o ho
    cases hi : o.kind.hasInputs
    · exact h1.of_no_input hi
    · rw [← heq (hkind _ (by rw [← hM'k]; exact mem_map_of_mem ho) hi)]
      exact h1
  · intro x hx
    obtain ⟨j, hj, rfl⟩ := mem_map.1 hx
    have hj := mem_range.1 hj
    refine ⟨?_, ?_, ?_⟩
    · rw [Opinf.getD_eq_getElem _ [] hj]
      exact hs _ (getElem_mem _)
    · rw [← hlhs.1]
      rw [Opinf.getD_eq_getElem (atleast2d lhs).2 [] (by rw [hlhs.2]; exact hj)]
      exact hl _ (getElem_mem _)
    · intro o ho hoi
      have h1 : o.kind ∈ M1.ops.map Op.kind := by rw [hM1k]; exact mem_map_of_mem ho
      obtain ⟨o', ho', e⟩ := mem_map.1 h1
      have h2 := (f19 j hj).2.1 o' ho'
      rw [e] at h2
      have h3 := h2 hoi
      rwa [heq2 (hkind _ (mem_map_of_mem ho) hoi)] at h3

/-! ### Property theorems -/

/-- One training call: the model before, the data, and the model after. -/
structure Training (K S : Type) where
  before : Model K S
  states : Arg K
  lhs : Arg K
  inputs : Option (Arg K)
  after : Model K S

/-- The samples the model was trained with. -/
def Training.samples {S : Type} (t : Training K S) : List (TrainSample K) := argSamples t.states t.lhs t.inputs

/-- A call of `fit()` on a consistent model with matrices or vectors of `r`-dimensional states and `m`-dimensional
inputs that returned normally. -/
structure Training.Done {S : Type} (t : Training K S) (I : SolverI K S) (r m : Nat) : Prop where
  inv : t.before.Inv
  learns : t.before.intrusive = false
  statesWF : t.states.WF
  lhsWF : t.lhs.WF
  inputsWF : ∀ a ∈ t.inputs, a.WF
  dim : (atleast2d t.states).1 = r
  pos : 0 < r
  inputDim : ∀ a ∈ t.inputs, (atleast2d a).1 = m
  returned : t.before.fit I t.states t.lhs t.inputs = (t.after, .ok ())

theorem Training.Done.facts {S : Type} {t : Training K S} {I : SolverI K S} {r m : Nat} (h : t.Done I r m)
    (hI : I.Shaped r) :
    Forall₂ TrainStep t.before.slots t.after.slots ∧ (∀ o ∈ t.after.ops, o.Cal r m) ∧
      ∀ x ∈ t.samples, x.q.length = r ∧ x.z.length = r ∧ ∀ o ∈ t.before.ops, InputOK o.kind m x.u := by
  obtain ⟨h1, h2, h3, h4, h5, rfl, h7, h8, h9⟩ := h
  exact fit_facts I t.before h1 h2 t.states t.lhs t.inputs h3 h4 h5 h7 hI t.after h9 m h8

theorem Training.Done.l2 {t : Training K (L2 K K)} {svd : Mat K → Except Err (Svd K)}
    (hsvd : ∀ D u, svd D = .ok u → IsSVD D u) {r m : Nat} (h : t.Done (l2Solver svd) r m) {lam : K}
    (hlam : ∀ s ∈ t.before.solver, s.reg = some lam) :
    ∃ O, TrainedOptimally t.before t.after t.samples (fun O => lam ^ 2 * (O.rows.map sumSq).sum) O := by
  obtain ⟨h1, h2, h3, h4, h5, rfl, h7, h8, h9⟩ := h
  obtain ⟨s, lam', O, y, w, g1, g2, g3⟩ := C62_l2_fit_is_optimal svd hsvd t.before h1 h2 _ _ _ h3 h4 h5 h7 t.after h9
  have := hlam s (by rw [g1]; rfl)
  rw [g2, Option.some.injEq] at this
  subst this
  exact ⟨O, trainedOptimally_of g3⟩

theorem Training.Done.plain {t : Training K (Plain K)} {lstsq : Mat K → Mat K → Except Err (Mat K)}
    (hls : ∀ A B X, lstsq A B = .ok X → IsLstsq A B X) {r m : Nat} (h : t.Done (plainSolver lstsq) r m) :
    ∃ O, TrainedOptimally t.before t.after t.samples (fun O => (0 : K) ^ 2 * (O.rows.map sumSq).sum) O := by
  obtain ⟨h1, h2, h3, h4, h5, rfl, h7, h8, h9⟩ := h
  obtain ⟨O, y, w, g3⟩ := C62_plain_fit_is_optimal lstsq hls t.before h1 h2 _ _ _ h3 h4 h5 h7 t.after h9
  refine ⟨O, ?_⟩
  have e : (fun O : Mat K => (0 : K) ^ 2 * (O.rows.map sumSq).sum) = fun _ => 0 := by funext O; simp
  rw [e]
  exact trainedOptimally_of g3

/-- The conclusion: the trained models agree on all samples. With `decisive` they have the same operators up to the
order, and the same right-hand side everywhere. -/
structure SameResult {S S' : Type} (t : Training K S) (t' : Training K S') (decisive : Prop) : Prop where
  onSamples : ∀ x ∈ t.samples, t.after.rhs x.q x.u = t'.after.rhs x.q x.u
  operators : decisive → t.after.ops.Perm t'.after.ops
  everywhere : decisive → ∀ q u y, t.after.rhs q u = .ok y ↔ t'.after.rhs q u = .ok y

theorem rhs_perm_across {S S' : Type} (M : Model K S) (N : Model K S') (h : M.ops.Perm N.ops) (q : List K)
    (u : Option (List K)) (y : List K) : M.rhs q u = .ok y ↔ N.rhs q u = .ok y := by
  constructor
  · intro hM
    obtain ⟨ts, h1, h2⟩ := (rhs_terms M q u y).1 hM
    obtain ⟨ts', h3, h4⟩ := perm_comp_forall₂ h.symm h1
    exact (rhs_terms N q u y).2 ⟨ts', h3, by rw [h2]; exact (sumTerms_perm h4 _).symm⟩
  · intro hN
    obtain ⟨ts, h1, h2⟩ := (rhs_terms N q u y).1 hN
    obtain ⟨ts', h3, h4⟩ := perm_comp_forall₂ h h1
    exact (rhs_terms M q u y).2 ⟨ts', h3, by rw [h2]; exact (sumTerms_perm h4 _).symm⟩

/-- The data determine the learned operators: no nonzero linear combination of the entries of the data vectors vanishes
at all samples. -/
def Training.Decided {S : Type} (t : Training K S) (r m : Nat) : Prop :=
  Determines t.before.toInfer (t.before.toInfer.map fun o => o.dim r m).sum t.samples

theorem same_of {S S' : Type} (t : Training K S) (t' : Training K S') (I : SolverI K S) (I' : SolverI K S') (r m : Nat)
    (h : t.Done I r m) (h' : t'.Done I' r m) (hI : I.Shaped r) (hI' : I'.Shaped r) (c : K)
    (ho : ∃ O, TrainedOptimally t.before t.after t.samples (fun O => c ^ 2 * (O.rows.map sumSq).sum) O)
    (ho' : ∃ O, TrainedOptimally t'.before t'.after t'.samples (fun O => c ^ 2 * (O.rows.map sumSq).sum) O)
    (hops : t.before.slots.Perm t'.before.slots) (hxs : t.samples.Perm t'.samples) :
    SameResult t t' (c ≠ 0 ∨ t.Decided r m) := by
  obtain ⟨O, ho⟩ := ho
  obtain ⟨O', ho'⟩ := ho'
  obtain ⟨a1, a2, a3⟩ := h.facts hI
  obtain ⟨b1, b2, b3⟩ := h'.facts hI'
  obtain ⟨g1, g2⟩ := order_core t.before t.after t'.before t'.after r m t.samples t'.samples c O O' ho ho' hops hxs a1 b1
    a2 b2 (fun x hx => (a3 x hx).1) (fun x hx => (a3 x hx).2.1) fun x hx => (a3 x hx).2.2
  exact ⟨g1, fun hd => (g2 hd).map _, fun hd q u y => rhs_perm_across _ _ ((g2 hd).map _) q u y⟩

/-- **C108** (`L2Solver`). Train two models that have the same operators in any order, with the same regularizer, on the
same samples in any order: the trained models have the same outputs at all samples. If the regularizer is not zero or
the data determine the operators, then the trained operators are the same and so is the right-hand side everywhere. The
two trainings may use different singular value decompositions. -/
theorem C108_l2 (svd svd' : Mat K → Except Err (Svd K)) (hsvd : ∀ D u, svd D = .ok u → IsSVD D u)
    (hsvd' : ∀ D u, svd' D = .ok u → IsSVD D u) (t t' : Training K (L2 K K)) (r m : Nat) (lam : K)
    (h : t.Done (l2Solver svd) r m) (h' : t'.Done (l2Solver svd') r m) (hlam : ∀ s ∈ t.before.solver, s.reg = some lam)
    (hlam' : ∀ s ∈ t'.before.solver, s.reg = some lam) (hops : t.before.slots.Perm t'.before.slots)
    (hxs : t.samples.Perm t'.samples) : SameResult t t' (lam ≠ 0 ∨ t.Decided r m) :=
  same_of t t' _ _ r m h h' (l2Solver_shaped svd (fun D u h => ⟨(hsvd D u h).psiWF, (hsvd D u h).psiCols⟩) _)
    (l2Solver_shaped svd' (fun D u h => ⟨(hsvd' D u h).psiWF, (hsvd' D u h).psiCols⟩) _) lam (h.l2 hsvd hlam)
    (h'.l2 hsvd' hlam') hops hxs

/-- **C108** (`PlainSolver`). -/
theorem C108_plain (lstsq lstsq' : Mat K → Mat K → Except Err (Mat K))
    (hls : ∀ A B X, lstsq A B = .ok X → IsLstsq A B X) (hls' : ∀ A B X, lstsq' A B = .ok X → IsLstsq A B X)
    (t t' : Training K (Plain K)) (r m : Nat) (h : t.Done (plainSolver lstsq) r m) (h' : t'.Done (plainSolver lstsq') r m)
    (hops : t.before.slots.Perm t'.before.slots) (hxs : t.samples.Perm t'.samples) : SameResult t t' (t.Decided r m) := by
  have := same_of t t' _ _ r m h h'
    (plainSolver_shaped lstsq (fun A B X h => ⟨(hls A B X h).wf, (hls A B X h).rows, (hls A B X h).cols⟩) _)
    (plainSolver_shaped lstsq' (fun A B X h => ⟨(hls' A B X h).wf, (hls' A B X h).rows, (hls' A B X h).cols⟩) _) 0
    (h.plain hls) (h'.plain hls') hops hxs
  exact ⟨this.onSamples, fun hd => this.operators (.inr hd), fun hd => this.everywhere (.inr hd)⟩

/-- **C108** (two solvers). `PlainSolver` and `L2Solver` with regularizer zero give the same model. -/
theorem C108_plain_l2 (lstsq : Mat K → Mat K → Except Err (Mat K)) (hls : ∀ A B X, lstsq A B = .ok X → IsLstsq A B X)
    (svd : Mat K → Except Err (Svd K)) (hsvd : ∀ D u, svd D = .ok u → IsSVD D u) (t : Training K (Plain K))
    (t' : Training K (L2 K K)) (r m : Nat) (h : t.Done (plainSolver lstsq) r m) (h' : t'.Done (l2Solver svd) r m)
    (hlam : ∀ s ∈ t'.before.solver, s.reg = some 0) (hops : t.before.slots.Perm t'.before.slots)
    (hxs : t.samples.Perm t'.samples) : SameResult t t' (t.Decided r m) := by
  have := same_of t t' _ _ r m h h'
    (plainSolver_shaped lstsq (fun A B X h => ⟨(hls A B X h).wf, (hls A B X h).rows, (hls A B X h).cols⟩) _)
    (l2Solver_shaped svd (fun D u h => ⟨(hsvd D u h).psiWF, (hsvd D u h).psiCols⟩) _) 0
    (h.plain hls) (h'.l2 hsvd hlam) hops hxs
  exact ⟨this.onSamples, fun hd => this.operators (.inr hd), fun hd => this.everywhere (.inr hd)⟩

/-- **C108** (`TikhonovSolver`). The regularization matrix belongs to an order of the operators, so only the samples may
be permuted: the trained models have the same outputs at all samples, and the same operators if the kernel of the
regularization matrix is trivial or the data determine the operators. -/
theorem C108_tikhonov (lstsq posSolve lstsq' posSolve' : Mat K → Mat K → Except Err (Mat K))
    (hls : ∀ A B X, lstsq A B = .ok X → IsLstsq A B X)
    (hps : ∀ A B X, A.nrows = B.nrows → A.nrows = A.ncols → posSolve A B = .ok X → IsSolution A B X)
    (hls' : ∀ A B X, lstsq' A B = .ok X → IsLstsq A B X)
    (hps' : ∀ A B X, A.nrows = B.nrows → A.nrows = A.ncols → posSolve' A B = .ok X → IsSolution A B X)
    (t t' : Training K (Tik (Mat K) K)) (r m : Nat) (h : t.Done (tikSolver lstsq posSolve) r m)
    (h' : t'.Done (tikSolver lstsq' posSolve') r m) (hbefore : t'.before = t.before)
    (G : Mat K) (hG : G.WF) (hreg : ∀ s ∈ t.before.solver, s.reg = some G) (hxs : t.samples.Perm t'.samples) :
    (∀ x ∈ t.samples, t.after.rhs x.q x.u = t'.after.rhs x.q x.u) ∧
      ((∀ v : List K, v.length = (t.before.toInfer.map fun o => o.dim r m).sum → (∀ y ∈ matVec G.rows v, y = 0) →
          ∀ y ∈ v, y = 0) ∨ t.Decided r m → t.after.slots = t'.after.slots) := by
  have one : ∀ (ls ps : Mat K → Mat K → Except Err (Mat K)) (_ : ∀ A B X, ls A B = .ok X → IsLstsq A B X)
      (_ : ∀ A B X, A.nrows = B.nrows → A.nrows = A.ncols → ps A B = .ok X → IsSolution A B X)
      (v : Training K (Tik (Mat K) K)) (_ : v.Done (tikSolver ls ps) r m) (_ : ∀ s ∈ v.before.solver, s.reg = some G),
      (tikSolver ls ps).Shaped r ∧ ∃ O, TrainedOptimally v.before v.after v.samples
        (fun O => (O.rows.map fun o => sumSq (matVec G.rows o)).sum) O := by
    intro ls ps k1 k2 v hv hvr
    obtain ⟨h1, h2, h3, h4, h5, rfl, h7, h8, h9⟩ := hv
    obtain ⟨s, G', O, y, w, g1, g2, g3⟩ := C62_tikhonov_fit_is_optimal ls ps k1 k2 v.before h1 h2
      (fun s hs G' hG' => by
        have := hvr s hs
        rw [Option.mem_def] at hG'
        rw [hG', Option.some.injEq] at this
        exact this ▸ hG) _ _ _ h3 h4 h5 h7 v.after h9
    have := hvr s (by rw [g1]; rfl)
    rw [g2, Option.some.injEq] at this
    subst this
    exact ⟨tikSolver_shaped ls ps (fun A B X h => ⟨(k1 A B X h).wf, (k1 A B X h).rows, (k1 A B X h).cols⟩)
      (fun A B X e1 e2 h => ⟨(k2 A B X e1 e2 h).wf, (k2 A B X e1 e2 h).rows.trans e2.symm, (k2 A B X e1 e2 h).cols⟩) _,
      O, trainedOptimally_of g3⟩
  obtain ⟨sh, O, ho⟩ := one lstsq posSolve hls hps t h hreg
  obtain ⟨sh', O', ho'⟩ := one lstsq' posSolve' hls' hps' t' h' (by rw [hbefore]; exact hreg)
  obtain ⟨a1, a2, a3⟩ := h.facts sh
  obtain ⟨b1, b2, b3⟩ := h'.facts sh'
  rw [hbefore] at ho' b1
  obtain ⟨g1, g2⟩ := samples_core t.before t.after t'.after r m t.samples t'.samples (quadratic_matVec _ G.rows) O O' ho ho'
    hxs a1 b1 a2 b2 (fun x hx => (a3 x hx).1) (fun x hx => (a3 x hx).2.1) fun x hx => (a3 x hx).2.2
  refine ⟨g1, fun hd => g2 (hd.imp (fun hk v hv h0 => hk v hv ?_) id)⟩
  rw [sumSq_eq_zero _ h0]
  exact fun y hy => (mem_replicate.1 hy).2

end

/-! ### Examples -/

/-- A least-squares routine restricted to two problems that fit exactly. -/
def ordLs (A B : Mat ℚ) : Except Err (Mat ℚ) :=
  if A = ⟨3, 2, [[1, 0], [1, 1], [1, 3]]⟩ ∧ B = ⟨3, 1, [[1], [3], [7]]⟩ then .ok ⟨2, 1, [[1], [2]]⟩
  else if A = ⟨3, 2, [[3, 1], [0, 1], [1, 1]]⟩ ∧ B = ⟨3, 1, [[7], [1], [3]]⟩ then .ok ⟨2, 1, [[2], [1]]⟩
  else .error .linalg

theorem ordLs_spec (A B X : Mat ℚ) (h : ordLs A B = .ok X) : IsLstsq A B X := by
  unfold ordLs at h
  split at h
  · rename_i hc
    obtain ⟨rfl, rfl⟩ := hc
    injection h with h
    subst h
    refine ⟨by decide, rfl, rfl, ?_⟩
    intro j hj
    obtain rfl : j = 0 := by simp at hj; exact hj
    refine ⟨rfl, fun o' _ => ?_⟩
    have : sumSq (vsub (matVec [[1, 0], [1, 1], [1, 3]] (col [[(1 : ℚ)], [2]] 0)) (col [[1], [3], [7]] 0)) = 0 := by
      decide +kernel
    simp only
    rw [this]
    exact sumSq_nonneg _
  · split at h
    · rename_i hc
      obtain ⟨rfl, rfl⟩ := hc
      injection h with h
      subst h
      refine ⟨by decide, rfl, rfl, ?_⟩
      intro j hj
      obtain rfl : j = 0 := by simp at hj; exact hj
      refine ⟨rfl, fun o' _ => ?_⟩
      have : sumSq (vsub (matVec [[3, 1], [0, 1], [1, 1]] (col [[(2 : ℚ)], [1]] 0)) (col [[7], [1], [3]] 0)) = 0 := by
        decide +kernel
      simp only
      rw [this]
      exact sumSq_nonneg _
    · cases h

/-- A model of scalar states with the given operators to learn. -/
def ordModel (a b : OpKind) : Model ℚ (Plain ℚ) where
  slots := [⟨⟨a, none⟩, true⟩, ⟨⟨b, none⟩, true⟩]
  hasInputs := a.hasInputs || b.hasInputs
  r := none
  m := some 0
  intrusive := false
  solver := some ⟨none⟩

theorem ordModel_inv (a b : OpKind) : (ordModel a b).Inv := by
  refine ⟨?_, ?_, ?_, fun _ => rfl, fun _ => ⟨⟨⟨a, none⟩, true⟩, by simp [ordModel], rfl⟩⟩
  · intro s hs E hE
    simp only [ordModel, mem_cons, not_mem_nil, or_false] at hs
    rcases hs with rfl | rfl <;> cases hE
  · simp [ordModel, Model.ops]
  · intro s hs
    simp only [ordModel, mem_cons, not_mem_nil, or_false] at hs
    rcases hs with rfl | rfl <;> simp

/-- Constant plus linear operator; the states 0, 1, 3 with derivatives 1, 3, 7. -/
def ordA : Training ℚ (Plain ℚ) where
  before := ordModel .const .lin
  states := .mat 1 [[0], [1], [3]]
  lhs := .mat 1 [[1], [3], [7]]
  inputs := none
  after := ((ordModel .const .lin).fit (plainSolver ordLs) (.mat 1 [[0], [1], [3]]) (.mat 1 [[1], [3], [7]]) none).1

/-- Linear plus constant operator; the same data in another order. -/
def ordB : Training ℚ (Plain ℚ) where
  before := ordModel .lin .const
  states := .mat 1 [[3], [0], [1]]
  lhs := .mat 1 [[7], [1], [3]]
  inputs := none
  after := ((ordModel .lin .const).fit (plainSolver ordLs) (.mat 1 [[3], [0], [1]]) (.mat 1 [[7], [1], [3]]) none).1

theorem ordA_done : ordA.Done (plainSolver ordLs) 1 0 :=
  ⟨ordModel_inv _ _, rfl, by unfold Arg.WF; decide +kernel, by unfold Arg.WF; decide +kernel, (fun a h => by cases h), rfl,
    by omega, (fun a h => by cases h),
    Prod.ext rfl (by
      change ((ordModel .const .lin).fit (plainSolver ordLs) (.mat 1 [[0], [1], [3]]) (.mat 1 [[1], [3], [7]]) none).2 = _
      decide +kernel)⟩

theorem ordB_done : ordB.Done (plainSolver ordLs) 1 0 :=
  ⟨ordModel_inv _ _, rfl, by unfold Arg.WF; decide +kernel, by unfold Arg.WF; decide +kernel, (fun a h => by cases h), rfl,
    by omega, (fun a h => by cases h),
    Prod.ext rfl (by
      change ((ordModel .lin .const).fit (plainSolver ordLs) (.mat 1 [[3], [0], [1]]) (.mat 1 [[7], [1], [3]]) none).2 = _
      decide +kernel)⟩

theorem ordA_decided : ordA.Decided 1 0 := by
  intro v hv h
  obtain ⟨a, b, rfl⟩ : ∃ a b, v = [a, b] := by
    match v, hv with
    | [a, b], _ => exact ⟨a, b, rfl⟩
  have h0 := h ⟨[0], [1], none⟩ (by simp [Training.samples, argSamples, ordA, atleast2d, inputAt, range_succ])
  have h1 := h ⟨[1], [3], none⟩ (by simp [Training.samples, argSamples, ordA, atleast2d, inputAt, range_succ])
  simp [ordA, ordModel, Model.toInfer, dataVector, OpKind.dataCol, dot] at h0 h1
  simp [h0] at h1
  simp [h0, h1]

theorem ord_samples : ordA.samples.Perm ordB.samples := by
  have : ordB.samples = [⟨[3], [7], none⟩, ⟨[0], [1], none⟩, ⟨[1], [3], none⟩] := rfl
  rw [this]
  have : ordA.samples = [⟨[0], [1], none⟩, ⟨[1], [3], none⟩, ⟨[3], [7], none⟩] := rfl
  rw [this]
  exact perm_append_comm (l₁ := [(⟨[0], [1], none⟩ : TrainSample ℚ), ⟨[1], [3], none⟩]) (l₂ := [⟨[3], [7], none⟩])

-- all hypotheses of `C108_plain` hold for two trainings with other orders of operators and snapshots
example : ordA.after.ops.Perm ordB.after.ops :=
  (C108_plain ordLs ordLs ordLs_spec ordLs_spec ordA ordB 1 0 ordA_done ordB_done (Perm.swap _ _ _) ord_samples).operators
    ordA_decided

-- the results, up to the order of the operators
example : ordA.after.ops = [⟨.const, some ⟨1, 1, [[1]]⟩⟩, ⟨.lin, some ⟨1, 1, [[2]]⟩⟩] ∧
    ordB.after.ops = [⟨.lin, some ⟨1, 1, [[2]]⟩⟩, ⟨.const, some ⟨1, 1, [[1]]⟩⟩] := by
  constructor <;> decide +kernel

end Opinf
