import Verif.Lemmas.TransformLeaf
import Mathlib.Tactic.Abel

/-! # Splitting states into parts and joining parts -/

namespace Opinf

open List

variable {K S : Type}

/-! ### Lists of parts -/

/-- Consecutive pieces of the given sizes. -/
def cutAt {α : Type} : List Nat → List α → List (List α)
  | [], _ => []
  | n :: ns, l => l.take n :: cutAt ns (l.drop n)

theorem cutAt_flatten {α : Type} (ns : List Nat) (l : List α) (h : l.length = ns.sum) :
    (cutAt ns l).flatten = l := by
  induction ns generalizing l with
  | nil => simp at h; simp [cutAt, h]
  | cons n ns ih =>
    simp only [sum_cons] at h
    simp only [cutAt, flatten_cons]
    rw [ih _ (by simp; omega), take_append_drop]

theorem cutAt_of_flatten {α : Type} (Ps : List (List α)) : cutAt (Ps.map length) Ps.flatten = Ps := by
  induction Ps with
  | nil => rfl
  | cons P Ps ih => simp [cutAt, ih]

theorem cutAt_length {α : Type} (ns : List Nat) (l : List α) (h : l.length = ns.sum) :
    (cutAt ns l).map length = ns := by
  induction ns generalizing l with
  | nil => rfl
  | cons n ns ih =>
    simp only [sum_cons] at h
    simp only [cutAt, map_cons, length_take]
    rw [ih _ (by simp; omega)]
    congr 1
    omega

theorem cutAt_mem {α : Type} {ns : List Nat} {l : List α} {P : List α} (h : P ∈ cutAt ns l) :
    ∀ x ∈ P, x ∈ l := by
  induction ns generalizing l with
  | nil => simp [cutAt] at h
  | cons n ns ih =>
    simp only [cutAt, mem_cons] at h
    rcases h with rfl | h
    · exact fun x hx => mem_of_mem_take hx
    · exact fun x hx => mem_of_mem_drop (ih h x hx)

theorem splitSizes_vec (ns : List Nat) (a : Nat) (xs : List K) :
    splitSizes ns a (.vec xs) = (cutAt ns (xs.drop a)).map .vec := by
  induction ns generalizing a with
  | nil => rfl
  | cons n ns ih =>
    simp only [splitSizes, cutAt, map_cons, ih, Snap.slice, drop_drop]
    rw [drop_take, Nat.add_sub_cancel_left]

theorem splitSizes_mat (ns : List Nat) (a k : Nat) (rows : List (List K)) :
    splitSizes ns a (.mat k rows) = (cutAt ns (rows.drop a)).map (.mat k) := by
  induction ns generalizing a with
  | nil => rfl
  | cons n ns ih =>
    simp only [splitSizes, cutAt, map_cons, ih, Snap.slice, drop_drop]
    rw [drop_take, Nat.add_sub_cancel_left]

theorem concat_vec (Ps : List (List K)) (h : Ps ≠ []) :
    Snap.concat (Ps.map .vec) = .ok (.vec Ps.flatten) := by
  induction Ps with
  | nil => exact absurd rfl h
  | cons P Ps ih =>
    cases Ps with
    | nil => simp [Snap.concat]
    | cons P' Ps =>
      have := ih (by simp)
      simp only [map_cons] at this
      simp [Snap.concat, this, bind, Except.bind, Snap.append]

theorem concat_mat (k : Nat) (Ps : List (List (List K))) (h : Ps ≠ []) :
    Snap.concat (Ps.map (.mat k)) = .ok (.mat k Ps.flatten) := by
  induction Ps with
  | nil => exact absurd rfl h
  | cons P Ps ih =>
    cases Ps with
    | nil => simp [Snap.concat]
    | cons P' Ps =>
      have := ih (by simp)
      simp only [map_cons] at this
      simp [Snap.concat, this, bind, Except.bind, Snap.append]

/-! ### Joined parts -/

/-- `Y` consists of the parts `Ps` of the sizes `ns`. -/
structure Joined (c : Option Nat) (ns : List Nat) (Ps : List (Snap K)) (Y : Snap K) : Prop where
  parts : Forall₂ (fun P n => Snap.Shaped P n c) Ps ns
  whole : Y.Shaped ns.sum c
  concat : Snap.concat Ps = .ok Y
  split : splitSizes ns 0 Y = Ps

theorem shaped_parts_cases {c : Option Nat} {ns : List Nat} {Ps : List (Snap K)}
    (h : Forall₂ (fun P n => Snap.Shaped P n c) Ps ns) :
    (c = none ∧ ∃ ps : List (List K), Ps = ps.map .vec ∧ ps.map length = ns) ∨
    (∃ k, c = some k ∧ ∃ ps : List (List (List K)), Ps = ps.map (.mat k) ∧ ps.map length = ns ∧
      ∀ p ∈ ps, ∀ row ∈ p, row.length = k) := by
  cases c with
  | none =>
    refine Or.inl ⟨rfl, ?_⟩
    induction h with
    | nil => exact ⟨[], rfl, rfl⟩
    | cons h1 _ ih =>
      obtain ⟨ps, rfl, rfl⟩ := ih
      rename_i P n _
      cases P with
      | vec xs => exact ⟨xs :: ps, rfl, by simp [← h1.len, Snap.len]⟩
      | mat k rows => exact absurd h1.cols (by simp [Snap.cols])
  | some k =>
    refine Or.inr ⟨k, rfl, ?_⟩
    induction h with
    | nil => exact ⟨[], rfl, rfl, by simp⟩
    | cons h1 _ ih =>
      obtain ⟨ps, rfl, rfl, hw⟩ := ih
      rename_i P n _
      cases P with
      | vec xs => exact absurd h1.cols (by simp [Snap.cols])
      | mat k' rows =>
        have hk : k' = k := by simpa [Snap.cols] using h1.cols
        subst hk
        refine ⟨rows :: ps, rfl, by simp [← h1.len, Snap.len], ?_⟩
        intro p hp
        rcases mem_cons.1 hp with rfl | hp
        · exact h1.wf
        · exact hw p hp

theorem joined_of_parts {c : Option Nat} {ns : List Nat} {Ps : List (Snap K)}
    (h : Forall₂ (fun P n => Snap.Shaped P n c) Ps ns) (hn : ns ≠ []) : ∃ Y, Joined c ns Ps Y := by
  rcases shaped_parts_cases h with ⟨rfl, ps, rfl, rfl⟩ | ⟨k, rfl, ps, rfl, rfl, hw⟩
  · refine ⟨.vec ps.flatten, h, ⟨trivial, by simp [Snap.len], rfl⟩, concat_vec ps ?_, ?_⟩
    · rintro rfl; simp at hn
    · rw [splitSizes_vec, drop_zero, cutAt_of_flatten]
  · refine ⟨.mat k ps.flatten, h, ⟨?_, by simp [Snap.len], rfl⟩, concat_mat k ps ?_, ?_⟩
    · intro row hr
      obtain ⟨p, hp, hr⟩ := mem_flatten.1 hr
      exact hw p hp row hr
    · rintro rfl; simp at hn
    · rw [splitSizes_mat, drop_zero, cutAt_of_flatten]

theorem forall2_map_length {α : Type} {R : List α → Nat → Prop} (ps : List (List α))
    (h : ∀ p ∈ ps, R p p.length) : Forall₂ R ps (ps.map length) := by
  induction ps with
  | nil => exact .nil
  | cons p ps ih => exact .cons (h p (by simp)) (ih fun q hq => h q (by simp [hq]))

theorem joined_split {c : Option Nat} {ns : List Nat} {Y : Snap K} (h : Y.Shaped ns.sum c)
    (hn : ns ≠ []) : Joined c ns (splitSizes ns 0 Y) Y := by
  cases Y with
  | vec xs =>
    have hl : xs.length = ns.sum := h.len
    have hc : c = none := h.cols.symm
    subst hc
    have h1 := cutAt_length ns xs hl
    rw [splitSizes_vec, drop_zero]
    refine ⟨?_, h, ?_, by rw [splitSizes_vec, drop_zero]⟩
    · rw [forall₂_map_left_iff]
      conv => arg 3; rw [← h1]
      exact forall2_map_length _ fun p _ => ⟨trivial, rfl, rfl⟩
    · rw [concat_vec, cutAt_flatten ns xs hl]
      intro h0; rw [h0] at h1; exact hn (by simpa using h1.symm)
  | mat k rows =>
    have hl : rows.length = ns.sum := h.len
    have hc : c = some k := h.cols.symm
    subst hc
    have h1 := cutAt_length ns rows hl
    rw [splitSizes_mat, drop_zero]
    refine ⟨?_, h, ?_, by rw [splitSizes_mat, drop_zero]⟩
    · rw [forall₂_map_left_iff]
      conv => arg 3; rw [← h1]
      exact forall2_map_length _ fun p hp => ⟨fun row hr => h.wf row (cutAt_mem hp row hr), rfl, rfl⟩
    · rw [concat_mat, cutAt_flatten ns rows hl]
      intro h0; rw [h0] at h1; exact hn (by simpa using h1.symm)

theorem Joined.unique {c : Option Nat} {ns : List Nat} {Ps : List (Snap K)} {Y Z : Snap K}
    (h : Joined c ns Ps Y) (h' : Joined c ns Ps Z) : Y = Z := by
  have := h.concat.symm.trans h'.concat
  simpa using this

/-! ### Working on all parts -/

/-- Relates transformers, parts and results. -/
inductive Each3 {A : Type} (R : S → Snap K → A → Prop) : List S → List (Snap K) → List A → Prop
  | nil : Each3 R [] [] []
  | cons {t P Q ts Ps Qs} : R t P Q → Each3 R ts Ps Qs → Each3 R (t :: ts) (P :: Ps) (Q :: Qs)

theorem Each3.mono {A : Type} {R R' : S → Snap K → A → Prop} (h : ∀ t P Q, R t P Q → R' t P Q)
    {ts : List S} {Ps : List (Snap K)} {Qs : List A} (e : Each3 R ts Ps Qs) : Each3 R' ts Ps Qs := by
  induction e with
  | nil => exact .nil
  | cons h1 _ ih => exact .cons (h _ _ _ h1) ih

theorem Each3.swap {R : S → Snap K → Snap K → Prop} {ts : List S} {Ps Qs : List (Snap K)}
    (e : Each3 R ts Ps Qs) : Each3 (fun t Q P => R t P Q) ts Qs Ps := by
  induction e with
  | nil => exact .nil
  | cons h1 _ ih => exact .cons h1 ih

theorem Each3.length {A : Type} {R : S → Snap K → A → Prop} {ts : List S} {Ps : List (Snap K)}
    {Qs : List A} (e : Each3 R ts Ps Qs) : Ps.length = ts.length ∧ Qs.length = ts.length := by
  induction e with
  | nil => exact ⟨rfl, rfl⟩
  | cons h1 _ ih => simp [ih]

theorem eachPart_ok {f : S → Snap K → Buf K} {b : Bool} {ts : List S} {Ps Qs : List (Snap K)}
    (e : Each3 (fun t P Q => f t P = yields b P Q) ts Ps Qs) :
    eachPart f ts Ps = (if b then Qs else Ps, .ok Qs) := by
  induction e with
  | nil => cases b <;> rfl
  | cons h1 _ ih =>
    simp only [eachPart, h1, ih, yields]
    cases b <;> rfl

theorem multiResult_ok {c c' : Option Nat} {ns ns' : List Nat} {b : Bool} {Ps Qs : List (Snap K)}
    {Y Z : Snap K} (hP : Joined c ns Ps Y) (hQ : Joined c' ns' Qs Z) :
    multiResult b Y (if b then Qs else Ps, .ok Qs) = yields b Y Z := by
  cases b with
  | true => simp [multiResult, rejoin, hQ.concat, yields]
  | false => simp [multiResult, rejoin, hP.concat, hQ.concat, yields]

theorem multiDim_eq {I : TfI K S} {ts : List S} {ns : List Nat}
    (h : Forall₂ (fun t n => I.dim t = some n) ts ns) :
    multiDim I ts = some ns.sum ∧ ((ts.map I.dim).map (·.getD 0)) = ns ∧ ts.map I.dim = ns.map some := by
  have h1 : ts.mapM I.dim = some ns := by
    induction h with
    | nil => rfl
    | cons h1 _ ih => simp [mapM_cons, h1, ih]
  have h2 : ts.map I.dim = ns.map some := by
    clear h1
    induction h with
    | nil => rfl
    | cons h1 _ ih => rw [map_cons, map_cons, h1, ih]
  refine ⟨by simp [multiDim, h1], ?_, h2⟩
  rw [h2]
  simp [Function.comp_def]

theorem multiSplit_ok {I : TfI K S} {ts : List S} {ns : List Nat} {Y : Snap K}
    (h : Forall₂ (fun t n => I.dim t = some n) ts ns) (hY : Y.len = ns.sum) :
    multiSplit I ts Y = .ok (splitSizes ns 0 Y) := by
  obtain ⟨h1, h2, _⟩ := multiDim_eq h
  simp only [multiSplit, multiCheck, h1, hY, if_true, h2, bind, Except.bind, pure, Except.pure]

theorem multiSplit_bad {I : TfI K S} {ts : List S} {ns : List Nat} {Y : Snap K}
    (h : Forall₂ (fun t n => I.dim t = some n) ts ns) (hY : Y.len ≠ ns.sum) :
    multiSplit I ts Y = .error .dimensionality := by
  obtain ⟨h1, h2, _⟩ := multiDim_eq h
  simp only [multiSplit, multiCheck, h1, hY, if_false, bind, Except.bind]

end Opinf
