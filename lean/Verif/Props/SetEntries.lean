import Verif.Model.SetEntries
import Verif.Props.Galerkin

/-!
# C101: the entries an operator accepts

`set_entries` takes exactly the documented arrays, refuses everything else without touching the
operator, and stores entries that act as the documented formula says, whichever of the documented
forms they were given in.
-/

namespace Opinf

open List

variable {K : Type}

/-! ## Specification -/

/-- The shapes of arrays documented for the entries of each class (and the promotions of arrays
with one element): a vector of any length, possibly as a one-row or one-column matrix; a square
matrix; `r x r^p`, compressed or `r x .. x r` arrays; an `r x m` matrix or a vector (`m = 1`); an
`r x rm` matrix. -/
def OpKind.Documented : OpKind → List Nat → Prop
  | .const, s => ∃ n, s = [n] ∨ s = [1, n] ∨ s = [n, 1]
  | .lin, s => s = [1] ∨ ∃ r, s = [r, r]
  | .kron k, s => s = [1] ∨ (∃ r, s = [r, r ^ k.deg]) ∨ (∃ r, s = [r, k.dim r]) ∨
      ∃ r, 0 < r ∧ s = replicate (k.deg + 1) r
  | .inp, s => (∃ r, s = [r]) ∨ ∃ r m, s = [r, m]
  | .stateInp, s => s = [1] ∨ ∃ r m, 0 < r ∧ s = [r, r * m]

/-- What the values of a sparse matrix are compressed to is left open in the model. -/
abbrev Compressor (K : Type) := Kind → Mat (Val K) → Except Err (Mat (Val K))

/-! ## Screening -/

theorem screen_num (xs : List K) : screenEntries (xs.map Val.num) = .ok xs := by
  have h1 : (xs.map (Val.num (K := K))).any Val.isNan = false := by
    simp [Val.isNan]
  have h2 : (xs.map (Val.num (K := K))).any Val.isInf = false := by
    simp [Val.isInf]
  have h3 : (xs.map (Val.num (K := K))).filterMap Val.get? = xs := by
    rw [filterMap_map]
    have : (Val.get? ∘ Val.num : K → Option K) = some := rfl
    rw [this, filterMap_some]
  unfold screenEntries
  rw [h1, h2, h3]
  rfl

theorem screen_bad {data : List (Val K)} (h : ∃ v ∈ data, ∀ x, v ≠ .num x) :
    screenEntries data = .error .value := by
  obtain ⟨v, hv, hx⟩ := h
  unfold screenEntries
  by_cases h1 : data.any Val.isNan = true
  · rw [if_pos h1]
  · rw [if_neg h1]
    have h2 : data.any Val.isInf = true := by
      rw [any_eq_true]
      refine ⟨v, hv, ?_⟩
      cases v with
      | num x => exact absurd rfl (hx x)
      | inf => rfl
      | ninf => rfl
      | nan => exact absurd (any_eq_true.2 ⟨_, hv, rfl⟩) h1
    rw [if_pos h2]

theorem screen_cases (data : List (Val K)) :
    (∃ xs : List K, data = xs.map Val.num) ∨ ∃ v ∈ data, ∀ x, v ≠ Val.num x := by
  induction data with
  | nil => exact Or.inl ⟨[], rfl⟩
  | cons v vs ih =>
    rcases ih with ⟨xs, rfl⟩ | ⟨w, hw, hx⟩
    · cases v with
      | num x => exact Or.inl ⟨x :: xs, rfl⟩
      | inf => exact Or.inr ⟨_, mem_cons_self, fun x => nofun⟩
      | ninf => exact Or.inr ⟨_, mem_cons_self, fun x => nofun⟩
      | nan => exact Or.inr ⟨_, mem_cons_self, fun x => nofun⟩
    · exact Or.inr ⟨w, mem_cons_of_mem _ hw, hx⟩

/-! ## Shapes -/

theorem matOf_WF {r c : Nat} {data : List K} (h : data.length = r * c) : (matOf r c data).WF :=
  ⟨by simp [matOf, chunks], chunks_length h⟩

/-- `set_entries` of a Kronecker class on a matrix. -/
theorem kronSet [AddCommMonoid K] (k : Kind) (E : Mat K) (hE : E.WF) :
    (E.ncols = E.nrows ^ k.deg ∧ (OpKind.kron k).setEntries E
        = .ok ⟨E.nrows, k.dim E.nrows, E.rows.map (k.compressRow E.nrows)⟩) ∨
    (E.ncols ≠ E.nrows ^ k.deg ∧ E.ncols = k.dim E.nrows ∧
      (OpKind.kron k).setEntries E = .ok E) ∨
    (E.ncols ≠ E.nrows ^ k.deg ∧ E.ncols ≠ k.dim E.nrows ∧
      (OpKind.kron k).setEntries E = .error .value) := by
  rcases setEntries_cases k none none E hE with ⟨h, hs, -⟩ | ⟨h, h2, hs, -⟩ | ⟨h, h2, hs⟩
  · refine Or.inl ⟨h, ?_⟩
    simp only [OpKind.setEntries, KronOp.empty, hs]
    rfl
  · refine Or.inr (Or.inl ⟨h, h2, ?_⟩)
    simp only [OpKind.setEntries, KronOp.empty, hs]
    rfl
  · refine Or.inr (Or.inr ⟨h, h2, ?_⟩)
    simp only [OpKind.setEntries, KronOp.empty, hs]
    rfl

theorem dedup_one {s : List Nat} (h : s.dedup.length = 1) : ∃ r, s = replicate s.length r := by
  obtain ⟨r, hr⟩ := length_eq_one_iff.1 h
  refine ⟨r, eq_replicate_iff.2 ⟨rfl, fun x hx => ?_⟩⟩
  have : x ∈ s.dedup := mem_dedup.2 hx
  rw [hr] at this
  exact mem_singleton.1 this

theorem dedup_replicate {r n : Nat} (hn : 0 < n) : (replicate n r).dedup.length = 1 := by
  obtain ⟨m, rfl⟩ : ∃ m, n = m + 1 := ⟨n - 1, by omega⟩
  rw [replicate_dedup (by omega)]
  rfl

/-- A tensor with equal dimensions becomes a matrix with `r` rows. -/
theorem tensorShape_tensor (p r : Nat) (hr : 0 < r) :
    tensorShape p (replicate (p + 1) r) (r ^ (p + 1)) = .ok [r, r ^ p] := by
  have hh : (replicate (p + 1) r).headD 0 = r := rfl
  unfold tensorShape
  rw [if_pos ⟨length_replicate, dedup_replicate (by omega)⟩, hh, if_neg (by omega), pow_succ,
    Nat.mul_div_cancel _ hr]

theorem tensorShape_zero (p n : Nat) :
    tensorShape p (replicate (p + 1) 0) n = .error .value := by
  have hh : (replicate (p + 1) 0).headD 0 = 0 := rfl
  unfold tensorShape
  rw [if_pos ⟨length_replicate, dedup_replicate (by omega)⟩, hh, if_pos rfl]

theorem tensorShape_rest {p : Nat} {s : List Nat} {n : Nat} (h : ∀ r, s ≠ replicate (p + 1) r) :
    tensorShape p s n = .ok s := by
  unfold tensorShape
  rw [if_neg]
  rintro ⟨h1, h2⟩
  obtain ⟨r, hr⟩ := dedup_one h2
  rw [h1] at hr
  exact h r hr

theorem tensorShape_mat (k : Kind) (r c n : Nat) : tensorShape k.deg [r, c] n = .ok [r, c] := by
  refine tensorShape_rest fun x hx => ?_
  have := congrArg length hx
  rw [length_replicate] at this
  cases k <;> simp [Kind.deg] at this

theorem setDense_kron_mat [AddMonoid K] (k : Kind) (r c : Nat) (xs : List K) :
    (OpKind.kron k).setDense [r, c] xs = (OpKind.kron k).setEntries (matOf r c xs) := by
  simp only [OpKind.setDense, tensorShape_mat]
  rfl

theorem setDense_kron_tensor [AddMonoid K] (k : Kind) (r : Nat) (hr : 0 < r) (xs : List K)
    (hx : xs.length = r ^ (k.deg + 1)) :
    (OpKind.kron k).setDense (replicate (k.deg + 1) r) xs
      = (OpKind.kron k).setEntries (matOf r (r ^ k.deg) xs) := by
  simp only [OpKind.setDense, hx, tensorShape_tensor k.deg r hr]
  rfl

/-! ## The two-dimensional case -/

/-- The shapes accepted once arrays with one element are promoted. -/
def OpKind.Admits : OpKind → List Nat → Prop
  | .const, s => ∃ n, s = [n] ∨ s = [1, n] ∨ s = [n, 1]
  | .lin, s => ∃ r, s = [r, r]
  | .kron k, s => (∃ r, s = [r, r ^ k.deg]) ∨ (∃ r, s = [r, k.dim r]) ∨
      ∃ r, 0 < r ∧ s = replicate (k.deg + 1) r
  | .inp, s => (∃ r, s = [r]) ∨ ∃ r m, s = [r, m]
  | .stateInp, s => ∃ r m, 0 < r ∧ s = [r, r * m]

theorem kron_two [AddCommMonoid K] (k : Kind) (r c : Nat) (xs : List K) (hx : xs.length = r * c) :
    (∃ M, (OpKind.kron k).setEntries (matOf r c xs) = .ok M ∧ (c = r ^ k.deg ∨ c = k.dim r)) ∨
    ((OpKind.kron k).setEntries (matOf r c xs) = .error .value ∧ c ≠ r ^ k.deg ∧ c ≠ k.dim r) := by
  rcases kronSet k (matOf r c xs) (matOf_WF hx) with ⟨h, hs⟩ | ⟨-, h, hs⟩ | ⟨h, h2, hs⟩
  · exact Or.inl ⟨_, hs, Or.inl h⟩
  · exact Or.inl ⟨_, hs, Or.inr h⟩
  · exact Or.inr ⟨hs, h, h2⟩

theorem constRow [AddMonoid K] (n : Nat) (xs : List K) :
    OpKind.const.setDense [1, n] xs = .ok (matOf xs.length 1 xs) := by simp [OpKind.setDense]

theorem constCol [AddMonoid K] (n : Nat) (xs : List K) :
    OpKind.const.setDense [n, 1] xs = .ok (matOf xs.length 1 xs) := by simp [OpKind.setDense]

theorem setDense_admits [AddCommMonoid K] (o : OpKind) (s : List Nat) (xs : List K)
    (hx : xs.length = s.prod) (h : o.Admits s) : ∃ M, o.setDense s xs = .ok M := by
  cases o with
  | const =>
    obtain ⟨n, rfl | rfl | rfl⟩ := h
    · exact ⟨_, rfl⟩
    · exact ⟨_, constRow n xs⟩
    · exact ⟨_, constCol n xs⟩
  | lin =>
    obtain ⟨r, rfl⟩ := h
    exact ⟨_, if_pos rfl⟩
  | kron k =>
    rcases h with ⟨r, rfl⟩ | ⟨r, rfl⟩ | ⟨r, hr, rfl⟩
    · rw [setDense_kron_mat]
      rcases kron_two k r (r ^ k.deg) xs (by simpa using hx) with ⟨M, hM, -⟩ | ⟨-, h, -⟩
      · exact ⟨M, hM⟩
      · exact absurd rfl h
    · rw [setDense_kron_mat]
      rcases kron_two k r (k.dim r) xs (by simpa using hx) with ⟨M, hM, -⟩ | ⟨-, -, h⟩
      · exact ⟨M, hM⟩
      · exact absurd rfl h
    · rw [prod_replicate] at hx
      rw [setDense_kron_tensor k r hr xs hx]
      rcases kron_two k r (r ^ k.deg) xs (by rw [hx, pow_succ, Nat.mul_comm])
        with ⟨M, hM, -⟩ | ⟨-, h, -⟩
      · exact ⟨M, hM⟩
      · exact absurd rfl h
  | inp =>
    rcases h with ⟨r, rfl⟩ | ⟨r, m, rfl⟩
    · exact ⟨_, rfl⟩
    · exact ⟨_, rfl⟩
  | stateInp =>
    obtain ⟨r, m, hr, rfl⟩ := h
    refine ⟨matOf r (r * m) xs, ?_⟩
    simp only [OpKind.setDense]
    rw [if_neg (by omega), if_pos (by rw [Nat.mul_div_cancel_left m hr])]

theorem setDense_refuses [AddCommMonoid K] (o : OpKind) (s : List Nat) (xs : List K)
    (hx : xs.length = s.prod) (h : ¬ o.Admits s) :
    o.setDense s xs
      = .error (if o = .stateInp ∧ s.length = 2 ∧ s.head? = some 0 then .zeroDivision else .value) := by
  cases o with
  | const =>
    rw [if_neg (fun h => by cases h.1)]
    unfold OpKind.setDense
    simp only
    split
    · exact absurd ⟨_, Or.inl rfl⟩ h
    · rename_i a b
      rw [if_neg]
      rintro (rfl | rfl)
      · exact h ⟨_, Or.inr (Or.inl rfl)⟩
      · exact h ⟨_, Or.inr (Or.inr rfl)⟩
    · rfl
  | lin =>
    rw [if_neg (fun h => by cases h.1)]
    unfold OpKind.setDense
    simp only
    split
    · rename_i r c
      rw [if_neg]
      rintro rfl
      exact h ⟨_, rfl⟩
    · rfl
  | kron k =>
    rw [if_neg (fun h => by cases h.1)]
    by_cases ht : ∃ r, s = replicate (k.deg + 1) r
    · obtain ⟨r, rfl⟩ := ht
      rcases Nat.eq_zero_or_pos r with rfl | hr
      · simp only [OpKind.setDense, tensorShape_zero]
        rfl
      · exact absurd (Or.inr (Or.inr ⟨r, hr, rfl⟩)) h
    · have hs := tensorShape_rest (n := xs.length) (fun r hr => ht ⟨r, hr⟩)
      by_cases h2 : ∃ r c, s = [r, c]
      · obtain ⟨r, c, rfl⟩ := h2
        rw [setDense_kron_mat]
        rcases kron_two k r c xs (by simpa using hx) with ⟨M, hM, rfl | rfl⟩ | ⟨he, -, -⟩
        · exact absurd (Or.inl ⟨_, rfl⟩) h
        · exact absurd (Or.inr (Or.inl ⟨_, rfl⟩)) h
        · exact he
      · simp only [OpKind.setDense, hs, bind, Except.bind]
        split
        · rename_i r c
          exact absurd ⟨r, c, rfl⟩ h2
        · rfl
  | inp =>
    rw [if_neg (fun h => by cases h.1)]
    unfold OpKind.setDense
    simp only
    split
    · exact absurd (Or.inl ⟨_, rfl⟩) h
    · exact absurd (Or.inr ⟨_, _, rfl⟩) h
    · rfl
  | stateInp =>
    unfold OpKind.setDense
    simp only
    split
    · rename_i r c
      by_cases hr : r = 0
      · subst hr
        rw [if_pos rfl, if_pos ⟨trivial, rfl, rfl⟩]
      · rw [if_neg hr, if_neg, if_neg]
        · rintro ⟨-, -, hc⟩
          exact hr (Option.some.inj hc)
        · intro hc
          exact h ⟨r, c / r, by omega, by rw [← hc]⟩
    · rename_i hne
      rw [if_neg]
      rintro ⟨-, h2, -⟩
      obtain ⟨a, b, rfl⟩ := length_eq_two.1 h2
      exact hne a b rfl

/-! ## Promotion -/

theorem promote_array (o : OpKind) (s : List Nat) (d : List (Val K)) :
    o.promote (.array s d) = .array s d ∨ (o ≠ .const ∧ s = [1] ∧
      o.promote (.array s d) = .array [1, 1] d) := by
  by_cases hs : s = [1]
  · subst hs
    cases o <;> first | exact Or.inl rfl | exact Or.inr ⟨nofun, rfl, rfl⟩
  · left
    cases o <;> unfold OpKind.promote <;> split <;> first | rfl | (exfalso; simp_all)

theorem documented_iff (o : OpKind) (s : List Nat) :
    o.Documented s ↔ (o ≠ .const ∧ s = [1]) ∨ o.Admits s := by
  cases o with
  | const => simp [OpKind.Documented, OpKind.Admits]
  | lin => simp [OpKind.Documented, OpKind.Admits]
  | kron k => simp [OpKind.Documented, OpKind.Admits]
  | inp =>
    simp only [OpKind.Documented, OpKind.Admits]
    constructor
    · exact fun h => Or.inr h
    · rintro (⟨-, h⟩ | h)
      · exact Or.inl ⟨1, h⟩
      · exact h
  | stateInp => simp [OpKind.Documented, OpKind.Admits]

theorem admits_one (o : OpKind) (h : o ≠ .const) : o.Admits [1, 1] := by
  cases o with
  | const => exact absurd rfl h
  | lin => exact ⟨1, rfl⟩
  | kron k => exact Or.inl ⟨1, by rw [one_pow]⟩
  | inp => exact Or.inr ⟨1, 1, rfl⟩
  | stateInp => exact ⟨1, 1, by omega, rfl⟩

theorem newEntries_of_promote [AddMonoid K] (cmp : Compressor K) (o : OpKind) (a : EntryArg K)
    (s : List Nat) (xs : List K) (h : o.promote a = .array s (xs.map Val.num)) :
    o.newEntries cmp a = (o.setDense s xs).map Mat.toVal := by
  unfold OpKind.newEntries
  rw [h]
  simp only [screen_num, bind, Except.bind]
  cases o.setDense s xs <;> rfl

/-! ## C101 -/

/-- **C101.** An array of numbers is accepted as entries exactly if it has one of the documented
shapes of the class. -/
theorem C101_accepts_iff [AddCommMonoid K] (cmp : Compressor K) (o : OpKind) (s : List Nat)
    (xs : List K) (hx : xs.length = s.prod) :
    (∃ M, o.newEntries cmp (.array s (xs.map Val.num)) = .ok M) ↔ o.Documented s := by
  rw [documented_iff]
  rcases promote_array o s (xs.map Val.num) with h | ⟨ho, rfl, h⟩
  · rw [newEntries_of_promote cmp o _ s xs h]
    constructor
    · rintro ⟨M, hM⟩
      by_contra hc
      rw [setDense_refuses o s xs hx (fun h => hc (Or.inr h))] at hM
      cases hM
    · rintro (⟨ho, rfl⟩ | ha)
      · rcases promote_array o [1] (xs.map Val.num) with h' | ⟨-, -, h'⟩
        · exfalso
          cases o <;> first | exact ho rfl | simp [OpKind.promote] at h'
        · rw [h'] at h
          simp at h
      · obtain ⟨M, hM⟩ := setDense_admits o s xs hx ha
        exact ⟨_, by rw [hM]; rfl⟩
  · rw [newEntries_of_promote cmp o _ [1, 1] xs h]
    obtain ⟨M, hM⟩ := setDense_admits o [1, 1] xs (by simpa using hx) (admits_one o ho)
    exact ⟨fun _ => Or.inl ⟨ho, rfl⟩, fun _ => ⟨_, by rw [hM]; rfl⟩⟩

/-- **C101.** Any other array of numbers is refused with a `ValueError`, except that a state-input
operator divides by the number of rows before it compares. -/
theorem C101_refused [AddCommMonoid K] (cmp : Compressor K) (o : OpKind) (s : List Nat)
    (xs : List K) (hx : xs.length = s.prod) (h : ¬ o.Documented s) :
    o.newEntries cmp (.array s (xs.map Val.num))
      = .error (if o = .stateInp ∧ s.length = 2 ∧ s.head? = some 0 then .zeroDivision else .value) := by
  rw [documented_iff] at h
  rcases promote_array o s (xs.map Val.num) with hp | ⟨ho, rfl, -⟩
  · rw [newEntries_of_promote cmp o _ s xs hp,
      setDense_refuses o s xs hx (fun ha => h (Or.inr ha))]
    rfl
  · exact absurd (Or.inl ⟨ho, rfl⟩) h

/-- **C101.** A dense array (or a scalar) with a NaN or infinite entry is refused with a
`ValueError` whatever its shape. -/
theorem C101_nonfinite [AddMonoid K] (cmp : Compressor K) (o : OpKind) (s : List Nat)
    (d : List (Val K)) (h : ∃ v ∈ d, ∀ x, v ≠ .num x) :
    o.newEntries cmp (.array s d) = .error .value ∧
      ∀ v : Val K, (∀ x, v ≠ .num x) → o.newEntries cmp (.scalar v) = .error .value := by
  refine ⟨?_, fun v hv => ?_⟩
  · unfold OpKind.newEntries
    rcases promote_array o s d with hp | ⟨-, -, hp⟩ <;>
      (rw [hp]; simp only [screen_bad h]; rfl)
  · have hb := screen_bad (K := K) ⟨v, mem_singleton.2 rfl, hv⟩
    unfold OpKind.newEntries
    cases o <;> (simp only [OpKind.promote, hb]; rfl)

/-- **C101.** Objects that are not arrays (lists, `None`, ..) raise a `TypeError`, whatever they
contain; the only exceptions are sequences of shape `(1,)` given to a class other than
`ConstantOperator`, which are promoted like arrays. -/
theorem C101_not_an_array [AddMonoid K] (cmp : Compressor K) (o : OpKind) (s : List Nat)
    (d : List (Val K)) :
    (o = .const ∨ s ≠ [1] → o.newEntries cmp (.other s d) = .error .type) ∧
    (o ≠ .const → o.newEntries cmp (.other [1] d) = o.newEntries cmp (.array [1] d)) := by
  constructor
  · intro h
    have hp : o.promote (.other s d) = .other s d := by
      rcases h with rfl | h
      · rfl
      · cases o <;> unfold OpKind.promote <;> split <;> first | rfl | (exfalso; simp_all)
    unfold OpKind.newEntries
    rw [hp]
  · intro h
    unfold OpKind.newEntries
    cases o <;> first | exact absurd rfl h | rfl

/-! ## What is stored -/

theorem setDense_setEntries [AddMonoid K] (o : OpKind) (r c : Nat) (hr : 0 < r) (xs : List K)
    (ho : o ≠ .const) : o.setDense [r, c] xs = o.setEntries (matOf r c xs) := by
  cases o with
  | const => exact absurd rfl ho
  | lin => rfl
  | kron k => exact setDense_kron_mat k r c xs
  | inp => rfl
  | stateInp =>
    simp only [OpKind.setDense]
    rw [if_neg (by omega)]
    rfl

/-- **C101.** A full matrix (`r x r^p` for the Kronecker classes): the stored entries, applied to
the data column of a state and an input, give the product of the matrix with the full Kronecker
column. -/
theorem C101_matrix_action [Field K] (cmp : Compressor K) (o : OpKind) (r m : Nat) (hr : 0 < r)
    (xs : List K) (hx : xs.length = r * o.fullDim r m) :
    ∃ M : Mat K, o.newEntries cmp (.array [r, o.fullDim r m] (xs.map Val.num)) = .ok M.toVal ∧
      o.Fits M r m ∧ ∀ q u : List K, q.length = r → u.length = m →
        matVec M.rows (o.dataCol q u)
          = matVec (matOf r (o.fullDim r m) xs).rows (o.fullCol q u) := by
  have hp : o.promote (.array [r, o.fullDim r m] (xs.map Val.num))
      = .array [r, o.fullDim r m] (xs.map Val.num) := by
    rcases promote_array o [r, o.fullDim r m] (xs.map Val.num) with h | ⟨-, h, -⟩
    · exact h
    · simp at h
  rw [newEntries_of_promote cmp o _ _ xs hp]
  obtain ⟨F, hF, hfit, hact⟩ := setEntries_spec o (matOf r (o.fullDim r m) xs) r m hr
    (matOf_WF hx) rfl rfl
  by_cases ho : o = .const
  · subst ho
    have h1 : OpKind.const.fullDim r m = 1 := rfl
    rw [h1] at hx hF hact ⊢
    have hl : xs.length = r := by rw [hx, Nat.mul_one]
    have hd : OpKind.const.setDense [r, 1] xs = .ok (matOf r 1 xs) := by
      rw [constCol, hl]
    have hF' : F = matOf r 1 xs := by
      have : OpKind.const.setEntries (matOf r 1 xs) = .ok (matOf r 1 xs) := by
        simp [OpKind.setEntries, matOf]
      rw [this] at hF
      exact (Except.ok.inj hF).symm
    subst hF'
    exact ⟨_, by rw [hd]; rfl, hfit, hact⟩
  · rw [setDense_setEntries o r _ hr xs ho, hF]
    exact ⟨F, rfl, hfit, hact⟩

/-- **C101.** An `r x .. x r` array: the `i`-th entry of the result is the sum of all products of
the entries `[i, j, k, ..]` with `q[j] q[k] ..`, the array being read in C order. -/
theorem C101_tensor_action [Field K] (cmp : Compressor K) (k : Kind) (r : Nat) (hr : 0 < r)
    (xs : List K) (hx : xs.length = r ^ (k.deg + 1)) :
    ∃ M : Mat K,
      (OpKind.kron k).newEntries cmp (.array (replicate (k.deg + 1) r) (xs.map Val.num))
        = .ok M.toVal ∧ (OpKind.kron k).Fits M r 0 ∧
      ∀ q : List K, q.length = r → matVec M.rows (k.ckron q)
        = (range r).map fun i => dot ((xs.drop (i * r ^ k.deg)).take (r ^ k.deg))
            (kronProd k q) := by
  have hp : (OpKind.kron k).promote (.array (replicate (k.deg + 1) r) (xs.map Val.num))
      = .array (replicate (k.deg + 1) r) (xs.map Val.num) := by
    rcases promote_array (OpKind.kron k) (replicate (k.deg + 1) r) (xs.map Val.num)
      with h | ⟨-, h, -⟩
    · exact h
    · have := congrArg length h
      rw [length_replicate] at this
      cases k <;> simp [Kind.deg] at this
  have hx' : xs.length = r * r ^ k.deg := by rw [hx, pow_succ, Nat.mul_comm]
  obtain ⟨F, hF, hfit, hact⟩ := setEntries_spec (.kron k) (matOf r (r ^ k.deg) xs) r 0 hr
    (matOf_WF hx') rfl rfl
  rw [newEntries_of_promote cmp _ _ _ xs hp, setDense_kron_tensor k r hr xs hx, hF]
  refine ⟨F, rfl, hfit, fun q hq => ?_⟩
  have h := hact q [] hq rfl
  refine h.trans ?_
  simp only [matVec, matOf, chunks, map_map]
  rfl

/-- **C101.** A compressed matrix is stored as it is. -/
theorem C101_compressed_kept [AddCommMonoid K] (cmp : Compressor K) (k : Kind) (r : Nat)
    (xs : List K) (hx : xs.length = r * k.dim r) (hne : k.dim r ≠ r ^ k.deg) :
    (OpKind.kron k).newEntries cmp (.array [r, k.dim r] (xs.map Val.num))
      = .ok (matOf r (k.dim r) xs).toVal := by
  have hp : (OpKind.kron k).promote (.array [r, k.dim r] (xs.map Val.num))
      = .array [r, k.dim r] (xs.map Val.num) := by
    rcases promote_array (OpKind.kron k) [r, k.dim r] (xs.map Val.num) with h | ⟨-, h, -⟩
    · exact h
    · simp at h
  rw [newEntries_of_promote cmp _ _ _ xs hp, setDense_kron_mat]
  rcases kronSet k (matOf r (k.dim r) xs) (matOf_WF hx) with ⟨h, -⟩ | ⟨-, -, h⟩ | ⟨-, h, -⟩
  · exact absurd h hne
  · rw [h]
    rfl
  · exact absurd rfl h

/-- **C101.** Vectors: the three forms of the entries of a constant operator are the same vector,
a vector given to an input operator is its only column, and a scalar is an array with one
element. -/
theorem C101_vectors [AddMonoid K] (cmp : Compressor K) (xs : List K) :
    (∀ s ∈ [[xs.length], [1, xs.length], [xs.length, 1]],
      OpKind.const.newEntries cmp (.array s (xs.map Val.num)) = .ok (matOf xs.length 1 xs).toVal) ∧
    OpKind.inp.newEntries cmp (.array [xs.length] (xs.map Val.num))
      = .ok (matOf xs.length 1 xs).toVal ∧
    ∀ (o : OpKind) (v : Val K), o.newEntries cmp (.scalar v) = o.newEntries cmp (.array [1] [v]) := by
  refine ⟨fun s hs => ?_, ?_, fun o v => ?_⟩
  · rw [newEntries_of_promote cmp .const _ s xs rfl]
    simp only [mem_cons, not_mem_nil, or_false] at hs
    rcases hs with rfl | rfl | rfl
    · rfl
    · rw [constRow]
      rfl
    · rw [constCol]
      rfl
  · rcases promote_array .inp [xs.length] (xs.map Val.num) with h | ⟨-, h1, h⟩
    · rw [newEntries_of_promote cmp .inp _ _ xs h]
      rfl
    · rw [newEntries_of_promote cmp .inp _ _ xs h]
      have h1 : xs.length = 1 := by simpa using h1
      simp only [h1]
      rfl
  · unfold OpKind.newEntries
    cases o <;> rfl

/-! ## Sparse matrices -/

theorem chunks_flatten {c : Nat} {rows : List (List K)} (h : ∀ row ∈ rows, row.length = c) :
    chunks c rows.length rows.flatten = rows := by
  induction rows with
  | nil => rfl
  | cons row rows ih =>
    rw [length_cons, chunks_succ, flatten_cons,
      take_left' (h row mem_cons_self), drop_left' (h row mem_cons_self),
      ih fun r hr => h r (mem_cons_of_mem _ hr)]

/-- **C101.** A sparse matrix of numbers gives the same entries, or the same refusal, as the dense
matrix with the same values (constant, linear, input and state-input operators). -/
theorem C101_sparse_as_dense [AddMonoid K] (cmp : Compressor K) (o : OpKind)
    (ho : ∀ k, o ≠ .kron k) (c : Nat) (rows : List (List K)) (hc : ∀ row ∈ rows, row.length = c) :
    o.newEntries cmp (.sparse rows.length c (rows.map (·.map Val.num)))
      = o.newEntries cmp (.array [rows.length, c] (rows.flatten.map Val.num)) := by
  have hf : (rows.map (·.map Val.num)).flatten = rows.flatten.map (Val.num (K := K)) :=
    (map_flatten ..).symm
  have hp : o.promote (.array [rows.length, c] (rows.flatten.map Val.num))
      = .array [rows.length, c] (rows.flatten.map Val.num) := by
    rcases promote_array o [rows.length, c] (rows.flatten.map Val.num) with h | ⟨-, h, -⟩
    · exact h
    · simp at h
  have hm : (matOf rows.length c rows.flatten).toVal
      = ⟨rows.length, c, rows.map (·.map Val.num)⟩ := by
    simp only [matOf, Mat.toVal, chunks_flatten hc]
  rw [newEntries_of_promote cmp o _ _ _ hp]
  unfold OpKind.newEntries
  cases o with
  | const =>
    simp only [OpKind.promote, hf, screen_num, bind, Except.bind]
    cases OpKind.const.setDense [rows.length, c] rows.flatten <;> rfl
  | lin =>
    simp only [OpKind.promote, OpKind.setSparse, OpKind.setDense]
    by_cases h : rows.length = c
    · rw [if_pos h, if_pos h]
      exact congrArg _ hm.symm
    · rw [if_neg h, if_neg h]
      rfl
  | kron k => exact absurd rfl (ho k)
  | inp =>
    simp only [OpKind.promote, OpKind.setSparse, OpKind.setDense]
    exact congrArg _ hm.symm
  | stateInp =>
    simp only [OpKind.promote, OpKind.setSparse, OpKind.setDense]
    by_cases h0 : rows.length = 0
    · rw [if_pos h0, if_pos h0]
      rfl
    · rw [if_neg h0, if_neg h0]
      by_cases h : c = rows.length * (c / rows.length)
      · rw [if_pos h, if_pos h]
        exact congrArg _ hm.symm
      · rw [if_neg h, if_neg h]
        rfl

/-- **C101** (sparse quadratic, cubic and quartic entries): a sparse matrix whose width is neither
the one of all products nor the one of the distinct products is refused; one with the width of the
distinct products, which is less than that of all of them, is stored as it is. -/
theorem C101_sparse_width [AddMonoid K] (cmp : Compressor K) (k : Kind) (r c : Nat)
    (rows : List (List (Val K))) (h : c ≠ r ^ k.deg) :
    (c ≠ k.dim r → (OpKind.kron k).newEntries cmp (.sparse r c rows) = .error .value) ∧
    (c = k.dim r → (OpKind.kron k).newEntries cmp (.sparse r c rows) = .ok ⟨r, c, rows⟩) := by
  unfold OpKind.newEntries
  simp only [OpKind.promote, OpKind.setSparse, if_neg h]
  constructor
  · intro h2
    rw [if_pos h2]
  · intro h2
    rw [if_neg (not_not.2 h2)]

example : (OpKind.kron .quad).newEntries (K := Rat) (fun _ M => .ok M)
      (.sparse 2 5 [[.num 1, .num 0, .num 0, .num 0, .num 0], [.num 0, .num 0, .num 0, .num 0, .num 2]])
        = .error .value ∧
    (OpKind.kron .quad).newEntries (K := Rat) (fun _ M => .ok M)
      (.sparse 2 3 [[.num 1, .num 0, .num 0], [.num 0, .num 0, .num 2]])
        = .ok ⟨2, 3, [[.num 1, .num 0, .num 0], [.num 0, .num 0, .num 2]]⟩ :=
  ⟨(C101_sparse_width _ .quad 2 5 _ (by decide)).1 (by decide),
    (C101_sparse_width _ .quad 2 3 _ (by decide)).2 (by decide)⟩

/-- **C101 (finding).** The screening for NaN and Inf does not look into sparse matrices: every
square sparse matrix, whatever its values, is accepted by a linear operator, while the constant
operator, which makes it dense first, refuses such values. -/
theorem C101_sparse_not_screened [AddMonoid K] (cmp : Compressor K) (r : Nat)
    (rows : List (List (Val K))) :
    OpKind.lin.newEntries cmp (.sparse r r rows) = .ok ⟨r, r, rows⟩ ∧
    ((∃ row ∈ rows, ∃ v ∈ row, ∀ x, v ≠ .num x) →
      ∀ c, OpKind.const.newEntries cmp (.sparse r c rows) = .error .value) := by
  refine ⟨if_pos rfl, ?_⟩
  rintro ⟨row, hrow, v, hv, hx⟩ c
  have hb : screenEntries rows.flatten = .error .value :=
    screen_bad ⟨v, mem_flatten.2 ⟨row, hrow, hv⟩, hx⟩
  unfold OpKind.newEntries
  simp only [OpKind.promote, hb]
  rfl

/-! ## The attribute `entries` over the life of an operator -/

/-- What a step does to the attribute: nothing if the assignment is refused. -/
def EntStep.effect [AddMonoid K] (cmp : Compressor K) (o : OpKind) :
    EntStep K → Option (Option (Mat (Val K)))
  | .set a => match o.newEntries cmp a with
    | .ok M => some (some M)
    | .error _ => none
  | .del => some none

/-- **C101.** After any sequence of assignments and deletions the entries are those of the last
assignment that was accepted, unless a deletion came after it; refused assignments leave no
trace. -/
theorem C101_history [AddMonoid K] (cmp : Compressor K) (op : EntOp K) (steps : List (EntStep K)) :
    (steps.foldl (EntOp.step cmp) op).kind = op.kind ∧
    (steps.foldl (EntOp.step cmp) op).entries
      = (steps.reverse.findSome? (EntStep.effect cmp op.kind)).getD op.entries := by
  have key : ∀ rev : List (EntStep K),
      (rev.reverse.foldl (EntOp.step cmp) op).kind = op.kind ∧
      (rev.reverse.foldl (EntOp.step cmp) op).entries
        = (rev.findSome? (EntStep.effect cmp op.kind)).getD op.entries := by
    intro rev
    induction rev with
    | nil => exact ⟨rfl, rfl⟩
    | cons s rev ih =>
      obtain ⟨ihk, ihe⟩ := ih
      obtain ⟨st, hst⟩ : ∃ st, st = rev.reverse.foldl (EntOp.step cmp) op := ⟨_, rfl⟩
      rw [← hst] at ihk ihe
      rw [reverse_cons, foldl_append, ← hst]
      cases s with
      | del => exact ⟨ihk, rfl⟩
      | set a =>
        cases hn : op.kind.newEntries cmp a with
        | ok M =>
          have he : EntStep.effect cmp op.kind (.set a) = some (some M) := by
            simp only [EntStep.effect, hn]
          have hs : st.step cmp (.set a) = { st with entries := some M } := by
            simp only [EntOp.step, EntOp.set, ihk, hn]
          rw [findSome?_cons, he]
          exact ⟨by rw [foldl_cons, foldl_nil, hs]; exact ihk, by rw [foldl_cons, foldl_nil, hs]; rfl⟩
        | error e =>
          have he : EntStep.effect cmp op.kind (.set a) = none := by
            simp only [EntStep.effect, hn]
          have hs : st.step cmp (.set a) = st := by
            simp only [EntOp.step, EntOp.set, ihk, hn]
          rw [findSome?_cons, he]
          exact ⟨by rw [foldl_cons, foldl_nil, hs]; exact ihk, by rw [foldl_cons, foldl_nil, hs]; exact ihe⟩
  have := key steps.reverse
  rwa [reverse_reverse] at this

/-- The arguments for which the values are screened: everything but sparse matrices; data and
shape agree (as for every array). -/
def EntryArg.Screened : EntryArg K → Prop
  | .scalar _ => True
  | .array s d => d.length = s.prod
  | .sparse _ _ _ => False
  | .other s d => d.length = s.prod

/-- Entries as the other methods of the class need them: numbers, in a matrix whose number of
columns is the operator dimension for the state dimension `r` (its number of rows) and some
input dimension `m`. -/
def OpKind.Usable (o : OpKind) (E : Mat (Val K)) : Prop :=
  ∃ (M : Mat K) (m : Nat), E = M.toVal ∧ o.Fits M M.nrows m

theorem setDense_usable [AddCommMonoid K] (o : OpKind) (s : List Nat) (xs : List K)
    (hx : xs.length = s.prod) (M : Mat K) (h : o.setDense s xs = .ok M) :
    ∃ m, o.Fits M M.nrows m := by
  have kronFits : ∀ (k : Kind) (r c : Nat), xs.length = r * c →
      (OpKind.kron k).setEntries (matOf r c xs) = .ok M → (OpKind.kron k).Fits M M.nrows 0 := by
    intro k r c hl hM
    rcases setEntries_cases k none none (matOf r c xs) (matOf_WF hl)
      with ⟨-, hs, hst⟩ | ⟨-, -, hs, hst⟩ | ⟨-, -, hs⟩
    · simp only [OpKind.setEntries, KronOp.empty, hs] at hM
      obtain rfl := Except.ok.inj hM
      exact ⟨hst.1, rfl, hst.2⟩
    · simp only [OpKind.setEntries, KronOp.empty, hs] at hM
      obtain rfl := Except.ok.inj hM
      exact ⟨hst.1, rfl, hst.2⟩
    · simp only [OpKind.setEntries, KronOp.empty, hs] at hM
      cases hM
  by_cases ha : o.Admits s
  · cases o with
    | const =>
      have hM : M = matOf xs.length 1 xs := by
        obtain ⟨n, rfl | rfl | rfl⟩ := ha
        · have hn : xs.length = n := by simpa using hx
          rw [hn]
          exact (Except.ok.inj h).symm
        · rw [constRow] at h
          exact (Except.ok.inj h).symm
        · rw [constCol] at h
          exact (Except.ok.inj h).symm
      subst hM
      exact ⟨0, matOf_WF (by rw [Nat.mul_one]), rfl, rfl⟩
    | lin =>
      obtain ⟨r, rfl⟩ := ha
      have : OpKind.lin.setDense [r, r] xs = .ok (matOf r r xs) := if_pos rfl
      rw [this] at h
      obtain rfl := Except.ok.inj h
      exact ⟨0, matOf_WF (by simpa using hx), rfl, rfl⟩
    | kron k =>
      rcases ha with ⟨r, rfl⟩ | ⟨r, rfl⟩ | ⟨r, hr, rfl⟩
      · rw [setDense_kron_mat] at h
        exact ⟨0, kronFits k r _ (by simpa using hx) h⟩
      · rw [setDense_kron_mat] at h
        exact ⟨0, kronFits k r _ (by simpa using hx) h⟩
      · rw [prod_replicate] at hx
        rw [setDense_kron_tensor k r hr xs hx] at h
        exact ⟨0, kronFits k r _ (by rw [hx, pow_succ, Nat.mul_comm]) h⟩
    | inp =>
      rcases ha with ⟨r, rfl⟩ | ⟨r, m, rfl⟩
      · obtain rfl := Except.ok.inj h
        exact ⟨1, matOf_WF (by simpa using hx), rfl, rfl⟩
      · obtain rfl := Except.ok.inj h
        exact ⟨m, matOf_WF (by simpa using hx), rfl, rfl⟩
    | stateInp =>
      obtain ⟨r, m, hr, rfl⟩ := ha
      have : OpKind.stateInp.setDense [r, r * m] xs = .ok (matOf r (r * m) xs) := by
        simp only [OpKind.setDense]
        rw [if_neg (by omega), if_pos (by rw [Nat.mul_div_cancel_left m hr])]
      rw [this] at h
      obtain rfl := Except.ok.inj h
      exact ⟨m, matOf_WF (by simpa using hx), rfl, rfl⟩
  · rw [setDense_refuses o s xs hx ha] at h
    cases h

/-- **C101.** Whatever is accepted among scalars, arrays and other objects that are not sparse is
usable: only finite numbers, and the number of columns is the operator dimension. -/
theorem C101_usable [AddCommMonoid K] (cmp : Compressor K) (o : OpKind) (a : EntryArg K)
    (ha : a.Screened) (E : Mat (Val K)) (h : o.newEntries cmp a = .ok E) : o.Usable E := by
  have core : ∀ (s : List Nat) (d : List (Val K)), d.length = s.prod →
      o.promote a = .array s d → o.Usable E := by
    intro s d hd hp
    rcases screen_cases d with ⟨xs, rfl⟩ | hb
    · rw [newEntries_of_promote cmp o a s xs hp] at h
      cases hs : o.setDense s xs with
      | error e => rw [hs] at h; cases h
      | ok M =>
        rw [hs] at h
        obtain ⟨m, hm⟩ := setDense_usable o s xs (by simpa using hd) M hs
        exact ⟨M, m, (Except.ok.inj h).symm, hm⟩
    · unfold OpKind.newEntries at h
      rw [hp] at h
      simp only [screen_bad hb] at h
      cases h
  cases a with
  | scalar x =>
    by_cases ho : o = .const
    · subst ho
      exact core [1] [x] rfl rfl
    · refine core [1, 1] [x] rfl ?_
      cases o <;> first | exact absurd rfl ho | rfl
  | array s d =>
    rcases promote_array o s d with hp | ⟨-, rfl, hp⟩
    · exact core s d ha hp
    · exact core [1, 1] d ha hp
  | sparse r c rows => exact ha.elim
  | other s d =>
    by_cases hs : o = .const ∨ s ≠ [1]
    · rw [(C101_not_an_array cmp o s d).1 hs] at h
      cases h
    · push Not at hs
      obtain ⟨ho, rfl⟩ := hs
      refine core [1, 1] d ha ?_
      cases o <;> first | exact absurd rfl ho | rfl

/-- **C101.** Hence an operator that starts without entries and is never given a sparse matrix has
usable entries at every moment of its life, or none. -/
theorem C101_always_usable [AddCommMonoid K] (cmp : Compressor K) (o : OpKind)
    (steps : List (EntStep K)) (hs : ∀ a, EntStep.set a ∈ steps → a.Screened) (E : Mat (Val K))
    (h : (steps.foldl (EntOp.step cmp) ⟨o, none⟩).entries = some E) : o.Usable E := by
  rw [(C101_history cmp ⟨o, none⟩ steps).2] at h
  cases hf : steps.reverse.findSome? (EntStep.effect cmp o) with
  | none =>
    rw [hf] at h
    cases h
  | some e =>
    rw [hf] at h
    obtain rfl : e = some E := h
    obtain ⟨s, hmem, he⟩ := exists_of_findSome?_eq_some hf
    cases s with
    | del => cases he
    | set a =>
      cases hn : o.newEntries cmp a with
      | error err =>
        simp only [EntStep.effect, hn] at he
        cases he
      | ok M =>
        simp only [EntStep.effect, hn] at he
        obtain rfl := Option.some.inj (Option.some.inj he)
        exact C101_usable cmp o a (hs a (mem_reverse.1 hmem)) M hn

/-- **C101.** The constructor is an assignment to an operator without entries; `shape` and
`state_dimension` are read off the entries and are `None` without them. -/
theorem C101_construct [AddMonoid K] (cmp : Compressor K) (o : OpKind) (a : EntryArg K) :
    EntOp.make cmp o none = .ok ⟨o, none⟩ ∧
    EntOp.make cmp o (some a) = (o.newEntries cmp a).map (fun M => ⟨o, some M⟩) ∧
    (⟨o, none⟩ : EntOp K).shape = none ∧ (⟨o, none⟩ : EntOp K).stateDim = none ∧
    ∀ M : Mat (Val K), (⟨o, some M⟩ : EntOp K).stateDim = some M.nrows ∧
      (⟨o, some M⟩ : EntOp K).shape
        = some (if o = .const then [M.nrows] else [M.nrows, M.ncols]) := by
  refine ⟨rfl, ?_, rfl, rfl, fun M => ⟨rfl, rfl⟩⟩
  simp only [EntOp.make, EntOp.set]
  cases o.newEntries cmp a <;> rfl

/-! ## Examples -/

/-- A compressor that is never asked. -/
def noCmp : Compressor Rat := fun _ _ => .error .type

/-- A 2 x 2 x 2 tensor, the two matrix forms of it, and arrays that are refused. -/
example :
    (OpKind.kron .quad).newEntries noCmp
        (.array [2, 2, 2] (([1, 2, 3, 4, 5, 6, 7, 8] : List Rat).map Val.num))
      = .ok (⟨2, 3, [[1, 5, 4], [5, 13, 8]]⟩ : Mat Rat).toVal ∧
    (OpKind.kron .quad).newEntries noCmp
        (.array [2, 4] (([1, 2, 3, 4, 5, 6, 7, 8] : List Rat).map Val.num))
      = .ok (⟨2, 3, [[1, 5, 4], [5, 13, 8]]⟩ : Mat Rat).toVal ∧
    (OpKind.kron .quad).newEntries noCmp
        (.array [2, 3] (([1, 5, 4, 5, 13, 8] : List Rat).map Val.num))
      = .ok (⟨2, 3, [[1, 5, 4], [5, 13, 8]]⟩ : Mat Rat).toVal ∧
    (OpKind.kron .quad).newEntries noCmp
        (.array [4, 2] (([1, 2, 3, 4, 5, 6, 7, 8] : List Rat).map Val.num)) = .error .value ∧
    OpKind.stateInp.newEntries noCmp (.array [2, 3] (([1, 2, 3, 4, 5, 6] : List Rat).map Val.num))
      = .error .value ∧
    OpKind.stateInp.newEntries noCmp (.array [0, 3] []) = .error .zeroDivision := by
  decide +kernel

/-- The documented shapes are neither all nor none: `(2, 4)` is one of a quadratic operator,
`(4, 2)` is not. -/
example : (OpKind.kron .quad).Documented [2, 4] ∧ ¬ (OpKind.kron .quad).Documented [4, 2] := by
  refine ⟨Or.inr (Or.inl ⟨2, rfl⟩), ?_⟩
  rintro (h | ⟨r, h⟩ | ⟨r, h⟩ | ⟨r, -, h⟩)
  · cases h
  · have h1 : 4 = r := by simpa using congrArg (fun l => l.getD 0 0) h
    subst h1
    exact absurd h (by decide)
  · have h1 : 4 = r := by simpa using congrArg (fun l => l.getD 0 0) h
    subst h1
    exact absurd h (by decide)
  · exact absurd (congrArg length h) (by simp [Kind.deg])

/-- A history: an accepted assignment, two refused ones, which leave the entries as they are. -/
example :
    ([EntStep.set (.array [1] [.num 3]), .set (.array [2, 1] [.num 1, .num 2]),
      .set (.scalar .nan)].foldl (EntOp.step noCmp) ⟨.lin, none⟩).entries
      = some (⟨1, 1, [[3]]⟩ : Mat Rat).toVal := by
  decide +kernel

/-- A sparse matrix with a NaN entry is accepted as the entries of a linear operator. -/
example : OpKind.lin.newEntries noCmp (.sparse 1 1 [[.nan]]) = .ok ⟨1, 1, [[.nan]]⟩ ∧
    OpKind.lin.newEntries noCmp (.array [1, 1] [.nan]) = .error .value := by
  decide +kernel

end Opinf
