import Verif.Model.Lift
import Verif.Lemmas.Transform

/-! # Helper lemmas about lifting maps -/

namespace Opinf

open List

variable {K : Type}

/-- Entry of an array given by its rows. -/
def rowEntry [Zero K] (A : List (List K)) (i j : Nat) : K := (A.getD i []).getD j 0

theorem finite_ok {x : Option K} {v : K} (h : finite x = .ok v) : x = some v := by
  cases x with
  | none => cases h
  | some w => simp only [finite, Except.ok.injEq] at h; rw [h]

theorem mapM_ok_of {α β : Type} {f : α → Except Err β} {g : α → β} {l : List α} (h : ∀ a ∈ l, f a = .ok (g a)) :
    l.mapM f = .ok (l.map g) := by
  induction l with
  | nil => rfl
  | cons a l ih =>
    simp only [mapM_cons, bind, Except.bind, pure, Except.pure, h a (by simp),
      ih fun b hb => h b (by simp [hb]), map_cons]

/-- The result of an elementwise power. -/
theorem powAll_ok [Zero K] {pw : PowFn K} {p : ℚ} {Q B : List (List K)} (h : powAll pw p Q = .ok B) :
    B.map length = Q.map length ∧ ∀ i j, i < Q.length → j < (Q.getD i []).length →
      pw (rowEntry Q i j) p = some (rowEntry B i j) := by
  have hl := mapM_ok_length h
  have hrow : ∀ i, i < Q.length → ((Q.getD i []).mapM fun q => finite (pw q p)) = .ok (B.getD i []) :=
    fun i hi => mapM_ok_getD [] [] h i hi
  constructor
  · apply ext_getElem (by simp [hl])
    intro i h1 h2
    have hi : i < Q.length := by simpa using h2
    have hi' : i < B.length := by simpa using h1
    have := mapM_ok_length (hrow i hi)
    simp only [getD_eq_getElem?_getD, getElem?_eq_getElem hi, getElem?_eq_getElem hi', Option.getD_some] at this
    simpa using this
  · intro i j hi hj
    exact finite_ok (mapM_ok_getD 0 0 (hrow i hi) j hj)

theorem powAll_of {pw : PowFn K} {p : ℚ} {Q : List (List K)} {g : K → K}
    (h : ∀ row ∈ Q, ∀ q ∈ row, pw q p = some (g q)) : powAll pw p Q = .ok (Q.map (map g)) := by
  apply mapM_ok_of
  intro row hr
  apply mapM_ok_of
  intro q hq
  simp only [h row hr q hq, finite]

theorem drop_take_flatten {α : Type} (n : Nat) (bs : List (List α)) (h : ∀ b ∈ bs, b.length = n) (i : Nat)
    (hi : i < bs.length) : (bs.flatten.drop (i * n)).take n = bs.getD i [] := by
  induction bs generalizing i with
  | nil => simp at hi
  | cons b bs ih =>
    have hb := h b (by simp)
    cases i with
    | zero => simp [← hb]
    | succ i =>
      have := ih (fun c hc => h c (by simp [hc])) i (by simpa using hi)
      rw [flatten_cons, Nat.succ_mul, Nat.add_comm, ← drop_drop, drop_left' hb, this]
      simp

theorem length_flatten_const {α : Type} (n : Nat) (bs : List (List α)) (h : ∀ b ∈ bs, b.length = n) :
    bs.flatten.length = bs.length * n := by
  induction bs with
  | nil => simp
  | cons b bs ih =>
    rw [flatten_cons, length_append, h b (by simp), ih fun c hc => h c (by simp [hc]), length_cons, Nat.succ_mul,
      Nat.add_comm]

/-- Splitting a concatenation of blocks of the same height gives the blocks. -/
theorem splitRows_flatten (n : Nat) (bs : List (List (List K))) (h : ∀ b ∈ bs, b.length = n) (hm : bs ≠ []) :
    splitRows bs.flatten bs.length = .ok bs := by
  have h0 : bs.length ≠ 0 := by simpa using hm
  have hl := length_flatten_const n bs h
  unfold splitRows
  rw [if_neg h0, if_neg (by rw [hl]; simp)]
  have hd : bs.flatten.length / bs.length = n := by
    rw [hl]; exact Nat.mul_div_cancel_left n (Nat.pos_of_ne_zero h0)
  rw [hd]
  congr 1
  apply ext_getElem (by simp)
  intro i h1 h2
  simp only [getElem_map, getElem_range]
  rw [drop_take_flatten n bs h i h2, getD_eq_getElem?_getD, getElem?_eq_getElem h2, Option.getD_some]

theorem getD_flatten_blocks {α : Type} (n : Nat) (bs : List (List α)) (h : ∀ b ∈ bs, b.length = n) (i a : Nat) (d : α)
    (hi : i < bs.length) (ha : a < n) : bs.flatten.getD (i * n + a) d = (bs.getD i []).getD a d := by
  rw [← drop_take_flatten n bs h i hi]
  simp [getD_eq_getElem?_getD, ha]

/-- A successful lifting: the blocks. -/
theorem polyLift_ok {pw : PowFn K} {orders : List ℚ} {Q L : List (List K)} (h : polyLift pw orders Q = .ok L) :
    ∃ bs : List (List (List K)), L = bs.flatten ∧ bs.length = orders.length ∧ bs ≠ [] ∧
      (∀ b ∈ bs, b.length = Q.length) ∧ ∀ i, i < orders.length → powAll pw (orders.getD i 0) Q = .ok (bs.getD i []) := by
  simp only [polyLift, bind, Except.bind] at h
  cases hb : orders.mapM fun p => powAll pw p Q with
  | error e => rw [hb] at h; cases h
  | ok bs =>
    rw [hb] at h
    simp only [concatRows] at h
    split at h
    · cases h
    · rename_i hne
      simp only [Except.ok.injEq] at h
      refine ⟨bs, h.symm, mapM_ok_length hb, by simpa using hne, ?_, fun i hi => mapM_ok_getD 0 [] hb i hi⟩
      intro b hbs
      obtain ⟨p, _, hp⟩ := mapM_ok_mem hb b hbs
      exact mapM_ok_length hp

/-- The result of an elementwise product. -/
theorem mulAll_ok [MulZeroClass K] {A B C : List (List K)} (h : mulAll A B = .ok C) :
    A.map length = B.map length ∧ C.map length = A.map length ∧
      ∀ i j, rowEntry C i j = rowEntry A i j * rowEntry B i j := by
  unfold mulAll at h
  split at h
  · rename_i hs
    simp only [Except.ok.injEq] at h
    subst h
    have hs' : A.map length = B.map length := by simpa [sameShape] using hs
    have hl : A.length = B.length := by simpa using congrArg length hs'
    have hr : ∀ i (h1 : i < A.length) (h2 : i < B.length), (A[i]).length = (B[i]).length := by
      intro i h1 h2
      have := congrArg (fun l => l.getD i 0) hs'
      simpa [getD_eq_getElem?_getD, h1, h2] using this
    refine ⟨hs', ?_, ?_⟩
    · apply ext_getElem (by simp [hl])
      intro i h1 h2
      have hA : i < A.length := by simpa using h2
      have := hr i hA (hl ▸ hA)
      simp [this]
    · intro i j
      unfold rowEntry
      by_cases hi : i < A.length
      · have hi2 : i < B.length := hl ▸ hi
        simp only [getD_eq_getElem?_getD, getElem?_zipWith, getElem?_eq_getElem hi, getElem?_eq_getElem hi2,
          Option.getD_some]
        by_cases hj : j < (A[i]).length
        · have hj2 : j < (B[i]).length := hr i hi hi2 ▸ hj
          simp [hj, hj2]
        · have hj2 : ¬ j < (B[i]).length := hr i hi hi2 ▸ hj
          simp [hj, hj2]
      · have hi2 : ¬ i < B.length := hl ▸ hi
        simp [hi, hi2]
  · cases h

/-! ### `mapM` as a relation -/

theorem mapM_ok_forall2 {α β : Type} {f : α → Except Err β} {l : List α} {r : List β} :
    l.mapM f = .ok r ↔ Forall₂ (fun a b => f a = .ok b) l r := by
  induction l generalizing r with
  | nil =>
    simp only [mapM_nil, pure, Except.pure, Except.ok.injEq, forall₂_nil_left_iff]
    exact eq_comm
  | cons a l ih =>
    simp only [mapM_cons, bind, Except.bind, pure, Except.pure, forall₂_cons_left_iff]
    cases ha : f a with
    | error e => simp
    | ok b =>
      cases hl : l.mapM f with
      | error e =>
        simp only [reduceCtorEq, false_iff, not_exists, not_and]
        intro b' r' _ hr'
        rw [← ih, hl] at hr'
        cases hr'
      | ok bs =>
        constructor
        · intro h
          simp only [Except.ok.injEq] at h
          exact ⟨b, bs, rfl, ih.1 hl, h.symm⟩
        · rintro ⟨b', r', hb, hr', rfl⟩
          rw [← ih, hl] at hr'
          simp only [Except.ok.injEq] at hb hr'
          rw [hb, hr']

theorem mapM_exists_ok {α β : Type} {f : α → Except Err β} {l : List α} :
    (∃ r, l.mapM f = .ok r) ↔ ∀ a ∈ l, ∃ b, f a = .ok b := by
  simp only [mapM_ok_forall2]
  induction l with
  | nil => simp
  | cons a l ih =>
    simp only [forall₂_cons_left_iff, mem_cons, forall_eq_or_imp, ← ih]
    constructor
    · rintro ⟨r, b, r', hb, hr, rfl⟩
      exact ⟨⟨b, hb⟩, r', hr⟩
    · rintro ⟨⟨b, hb⟩, r', hr⟩
      exact ⟨_, b, r', hb, hr, rfl⟩

theorem finite_eq_ok {x : Option K} {v : K} : finite x = .ok v ↔ x = some v := by
  constructor
  · exact finite_ok
  · rintro rfl; rfl

theorem powAll_iff {pw : PowFn K} {p : ℚ} {Q B : List (List K)} :
    powAll pw p Q = .ok B ↔ Forall₂ (Forall₂ fun q b => pw q p = some b) Q B := by
  simp only [powAll, mapM_ok_forall2, finite_eq_ok]

theorem powAll_exists {pw : PowFn K} {p : ℚ} {Q : List (List K)} :
    (∃ B, powAll pw p Q = .ok B) ↔ ∀ row ∈ Q, ∀ q ∈ row, (pw q p).isSome := by
  simp only [powAll, mapM_exists_ok, finite_eq_ok, Option.isSome_iff_exists]

theorem forall2_comp {α β γ : Type} {R : α → β → Prop} {S : β → γ → Prop} {T : α → γ → Prop}
    (h : ∀ a b c, R a b → S b c → T a c) {l : List α} {m : List β} {n : List γ} (h1 : Forall₂ R l m)
    (h2 : Forall₂ S m n) : Forall₂ T l n := by
  induction h1 generalizing n with
  | nil => cases h2; exact .nil
  | cons hab _ ih =>
    cases h2 with
    | cons hbc hn => exact .cons (h _ _ _ hab hbc) (ih hn)

theorem forall2_diag {α : Type} {T : α → α → Prop} {l : List α} : Forall₂ T l l ↔ ∀ a ∈ l, T a a := by
  induction l with
  | nil => simp
  | cons a l ih => simp [ih]

theorem forall2_self {α β : Type} {R : α → β → Prop} {S : β → α → Prop} {l : List α} {m : List β}
    (h1 : Forall₂ R l m) (h2 : Forall₂ S m l) : ∀ a ∈ l, ∃ b, R a b ∧ S b a := by
  have := forall2_comp (T := fun a c => ∃ b, R a b ∧ S b c) (fun a b c h h' => ⟨b, h, h'⟩) h1 h2
  rwa [forall2_diag] at this

/-- A concatenation of computed blocks of the same height. -/
theorem concat_ok {n : Nat} {g : ℚ → Except Err (List (List K))} (hg : ∀ p B, g p = .ok B → B.length = n)
    {orders : List ℚ} {L : List (List K)} (h : (orders.mapM g >>= concatRows) = .ok L) :
    ∃ bs : List (List (List K)), L = bs.flatten ∧ bs.length = orders.length ∧ bs ≠ [] ∧
      (∀ b ∈ bs, b.length = n) ∧ ∀ i, i < orders.length → g (orders.getD i 0) = .ok (bs.getD i []) := by
  simp only [bind, Except.bind] at h
  cases hb : orders.mapM g with
  | error e => rw [hb] at h; cases h
  | ok bs =>
    rw [hb] at h
    simp only [concatRows] at h
    split at h
    · cases h
    · rename_i hne
      simp only [Except.ok.injEq] at h
      refine ⟨bs, h.symm, mapM_ok_length hb, by simpa using hne, ?_, fun i hi => mapM_ok_getD 0 [] hb i hi⟩
      intro b hbs
      obtain ⟨p, _, hp⟩ := mapM_ok_mem hb b hbs
      exact hg p b hp

/-- One block of the derivatives. -/
theorem polyDdtsBlock_ok [Field K] {pw : PowFn K} {p : ℚ} {Q D E : List (List K)}
    (h : polyDdtsBlock pw p Q D = .ok E) : E.map length = Q.map length ∧
      ∀ i j, i < Q.length → j < (Q.getD i []).length → ∃ v, pw (rowEntry Q i j) (p - 1) = some v ∧
        rowEntry E i j = p * v * rowEntry D i j := by
  simp only [polyDdtsBlock, bind, Except.bind] at h
  cases hb : powAll pw (p - 1) Q with
  | error e => rw [hb] at h; cases h
  | ok P =>
    rw [hb] at h
    obtain ⟨_, h2, h3⟩ := mulAll_ok h
    obtain ⟨h4, h5⟩ := powAll_ok hb
    constructor
    · rw [h2, map_map, ← h4]
      apply map_congr_left
      intro r _
      simp
    · intro i j hi hj
      refine ⟨_, h5 i j hi hj, ?_⟩
      rw [h3]
      congr 1
      simp only [rowEntry, getD_eq_getElem?_getD, getElem?_map]
      cases P[i]? with
      | none => simp
      | some r =>
        simp only [Option.map_some, Option.getD_some, getElem?_map]
        cases r[j]? <;> simp

/-- The loop of `unlift` uses the first nonzero order. -/
theorem unliftLoop_find (pw : PowFn K) {orders : List ℚ} {p : ℚ} (h : orders.find? (· ≠ 0) = some p) :
    ∃ m, m < orders.length ∧ orders.getD m 0 = p ∧ p ≠ 0 ∧ ∀ bs : List (List (List K)), bs.length = orders.length →
      unliftLoop pw (bs.zip orders) = powAll pw (1 / p) (bs.getD m []) := by
  induction orders with
  | nil => cases h
  | cons o orders ih =>
    by_cases ho : o = 0
    · subst ho
      rw [find?_cons_of_neg (by simp)] at h
      obtain ⟨m, h1, h2, h3, h4⟩ := ih h
      refine ⟨m + 1, by simpa using h1, by simpa using h2, h3, ?_⟩
      intro bs hbs
      cases bs with
      | nil => simp at hbs
      | cons b bs =>
        simp only [zip_cons_cons, unliftLoop, ne_eq, not_true_eq_false, if_false]
        rw [h4 bs (by simpa using hbs)]
        simp
    · rw [find?_cons_of_pos (by simpa using ho), Option.some.injEq] at h
      subst h
      refine ⟨0, by simp, by simp, ho, ?_⟩
      intro bs hbs
      cases bs with
      | nil => simp at hbs
      | cons b bs =>
        simp only [zip_cons_cons, unliftLoop, ne_eq, ho, not_false_eq_true, if_true]
        simp

theorem unliftLoop_zero (pw : PowFn K) {orders : List ℚ} (h : ∀ p ∈ orders, p = 0) (bs : List (List (List K))) :
    unliftLoop pw (bs.zip orders) = .error .zeroDivision := by
  induction orders generalizing bs with
  | nil => simp [unliftLoop]
  | cons o orders ih =>
    cases bs with
    | nil => simp [unliftLoop]
    | cons b bs =>
      simp only [zip_cons_cons, unliftLoop, h o (by simp), ne_eq, not_true_eq_false, if_false]
      exact ih (fun p hp => h p (by simp [hp])) bs

end Opinf
