import Verif.Lemmas.Lift
import Verif.Lemmas.MonoMaster
import Verif.Model.RomFit
import Verif.Props.Rom

/-!
# Lemmas about the training of a reduced-order model
-/

namespace Opinf

open List

variable {K T B S : Type}

/-! ### Lists -/

theorem forall₂_comp_iff {α β γ : Type} {R : α → β → Prop} {Q : β → γ → Prop} {as : List α} {cs : List γ} :
    Forall₂ (fun a c => ∃ b, R a b ∧ Q b c) as cs ↔ ∃ bs, Forall₂ R as bs ∧ Forall₂ Q bs cs := by
  constructor
  · intro h
    induction h with
    | nil => exact ⟨[], .nil, .nil⟩
    | cons h _ ih =>
      obtain ⟨b, h1, h2⟩ := h
      obtain ⟨bs, h3, h4⟩ := ih
      exact ⟨b :: bs, .cons h1 h3, .cons h2 h4⟩
  · rintro ⟨bs, h1, h2⟩
    induction h1 generalizing cs with
    | nil => rw [forall₂_nil_left_iff] at h2; subst h2; exact .nil
    | cons h _ ih =>
      obtain ⟨c, cs', h3, h4, rfl⟩ := forall₂_cons_left_iff.mp h2
      exact .cons ⟨_, h, h3⟩ (ih h4)

theorem forall₂_eq_right {α : Type} {as bs : List α} : Forall₂ (fun a b => b = a) as bs ↔ bs = as := by
  constructor
  · intro h
    induction h with
    | nil => rfl
    | cons h _ ih => rw [h, ih]
  · rintro rfl
    exact forall₂_same.mpr fun _ _ => rfl

theorem forall₂_zip_snd {α β : Type} {as : List α} {bs cs : List β} (hl : bs.length = as.length) :
    Forall₂ (fun (x : α × β) c => c = x.2) (zip as bs) cs ↔ cs = bs := by
  induction as generalizing bs cs with
  | nil =>
    have : bs = [] := length_eq_zero_iff.mp (by simpa using hl)
    subst this
    simp
  | cons a as ih =>
    obtain _ | ⟨b, bs⟩ := bs
    · simp at hl
    · rw [zip_cons_cons, forall₂_cons_left_iff]
      constructor
      · rintro ⟨c, cs', h1, h2, rfl⟩
        rw [(ih (by simpa using hl)).mp h2, h1]
      · rintro rfl
        exact ⟨b, bs, rfl, (ih (by simpa using hl)).mpr rfl, rfl⟩

theorem forall₂_zip_right {α β γ : Type} {P : β → γ → Prop} {as : List α} {bs : List β} {cs : List γ}
    (hl : bs.length = as.length) : Forall₂ (fun (x : α × β) c => P x.2 c) (zip as bs) cs ↔ Forall₂ P bs cs := by
  induction as generalizing bs cs with
  | nil =>
    have : bs = [] := length_eq_zero_iff.mp (by simpa using hl)
    subst this
    simp
  | cons a as ih =>
    obtain _ | ⟨b, bs⟩ := bs
    · simp at hl
    · rw [zip_cons_cons, forall₂_cons_left_iff, forall₂_cons_left_iff]
      simp only [ih (bs := bs) (by simpa using hl)]

theorem forall₂_zip_zip {α β γ δ : Type} {P : α → γ → Prop} {Q : α × β → δ → Prop} {as : List α} {bs : List β}
    {cs : List γ} {ds : List δ} (h1 : Forall₂ P as cs) (h2 : Forall₂ Q (zip as bs) ds) :
    Forall₂ (fun (x : α × β) (y : γ × δ) => P x.1 y.1 ∧ Q x y.2) (zip as bs) (zip cs ds) := by
  induction h1 generalizing bs ds with
  | nil => simp
  | cons h _ ih =>
    obtain _ | ⟨b, bs⟩ := bs
    · rw [zip_nil_right, forall₂_nil_left_iff] at h2
      subst h2
      simp
    · rw [zip_cons_cons, forall₂_cons_left_iff] at h2
      obtain ⟨d, ds', h3, h4, rfl⟩ := h2
      exact .cons ⟨h, h3⟩ (ih h4)

/-! ### Steps -/

/-- `F` is the left-hand side `z` at the states `q` after the lifter. -/
def LhsLifted (R : Rom K T B) (q z E : Snap K) : Prop :=
  if R.continuous then LiftedDdt R.lifter q z E else LiftedTo R.lifter z E

/-- `F` is the left-hand side `E` after the transformer. -/
def LhsTransformed (R : Rom K T B) (E F : Snap K) : Prop :=
  if R.continuous then TransformedDdt R.transformer E F else TransformedTo R.transformer E F

theorem liftTrain_none (R : Rom K T B) (qs : List (Snap K)) (Y : List (Snap K)) (Z : Option (List (Snap K))) :
    R.liftTrain qs none = .ok (Y, Z) ↔ Z = none ∧ Forall₂ (LiftedTo R.lifter) qs Y := by
  cases hl : R.lifter with
  | none =>
    simp only [Rom.liftTrain, hl, Except.ok.injEq, Prod.mk.injEq]
    rw [show LiftedTo (none : Option (LiftI K)) = fun q L => L = q from rfl, forall₂_eq_right]
    constructor
    · rintro ⟨rfl, rfl⟩; exact ⟨rfl, rfl⟩
    · rintro ⟨rfl, rfl⟩; exact ⟨rfl, rfl⟩
  | some l =>
    simp only [Rom.liftTrain, hl]
    rw [show LiftedTo (some l) = fun q L => l.lift q = .ok L from rfl, ← mapM_ok_forall2]
    cases qs.mapM l.lift with
    | error e => simp [Except.map]
    | ok Y' =>
      simp only [Except.map, Except.ok.injEq, Prod.mk.injEq]
      constructor
      · rintro ⟨rfl, rfl⟩; exact ⟨rfl, rfl⟩
      · rintro ⟨rfl, rfl⟩; exact ⟨rfl, rfl⟩

theorem liftTrain_some (R : Rom K T B) (qs zs : List (Snap K)) (hlen : zs.length = qs.length) (Y : List (Snap K))
    (Z : Option (List (Snap K))) : R.liftTrain qs (some zs) = .ok (Y, Z) ↔ ∃ E, Z = some E ∧
      Forall₂ (LiftedTo R.lifter) qs Y ∧ Forall₂ (fun (x : Snap K × Snap K) e => LhsLifted R x.1 x.2 e) (zip qs zs) E := by
  cases hl : R.lifter with
  | none =>
    simp only [Rom.liftTrain, hl, Except.ok.injEq, Prod.mk.injEq, LhsLifted]
    rw [show LiftedTo (none : Option (LiftI K)) = fun q L => L = q from rfl]
    simp only [forall₂_eq_right, LiftedDdt, ite_self, forall₂_zip_snd hlen]
    constructor
    · rintro ⟨rfl, rfl⟩; exact ⟨_, rfl, rfl, rfl⟩
    · rintro ⟨E, rfl, rfl, rfl⟩; exact ⟨rfl, rfl⟩
  | some l =>
    have hlhs : ∀ E, liftLhs l R.continuous qs zs = .ok E ↔
        Forall₂ (fun (x : Snap K × Snap K) e => LhsLifted R x.1 x.2 e) (zip qs zs) E := by
      intro E
      simp only [liftLhs, LhsLifted, hl]
      cases R.continuous with
      | true => exact mapM_ok_forall2
      | false =>
        simp only [Bool.false_eq_true, if_false, LiftedTo]
        rw [mapM_ok_forall2, forall₂_zip_right (P := fun z e => l.lift z = .ok e) hlen]
    simp only [Rom.liftTrain, hl, ← hlhs]
    rw [show LiftedTo (some l) = fun q L => l.lift q = .ok L from rfl, ← mapM_ok_forall2]
    cases liftLhs l R.continuous qs zs with
    | error e => simp
    | ok E =>
      cases qs.mapM l.lift with
      | error e => simp [Except.map]
      | ok Y' =>
        simp only [Except.map, Except.ok.injEq, Prod.mk.injEq]
        constructor
        · rintro ⟨rfl, rfl⟩; exact ⟨_, rfl, rfl, rfl⟩
        · rintro ⟨E', rfl, rfl, rfl⟩; exact ⟨rfl, rfl⟩

/-- `x'` is the component `x` after being fitted to the concatenation of the arrays, or `x` if it is not to be
fitted. -/
def FittedOn {X : Type} (fit : X → Snap K → X × Except Err Unit) (flag : Bool) (Qs : List (Snap K)) (x x' : X) : Prop :=
  if flag then ∃ Q, hstackAll Qs = .ok Q ∧ fit x Q = (x', .ok ()) else x' = x

theorem fitStacked_ok {X : Type} (fit : X → Snap K → X × Except Err Unit) (x x' : X) (flag : Bool)
    (Qs : List (Snap K)) : fitStacked fit x flag Qs = (x', .ok ()) ↔ FittedOn fit flag Qs x x' := by
  cases flag with
  | false => simp [fitStacked, FittedOn, eq_comm]
  | true =>
    simp only [fitStacked, FittedOn, if_true]
    cases hstackAll Qs with
    | error e => simp
    | ok Q => simp

/-- The optional component of a ROM after being fitted. -/
def CompFitted {X J : Type} (fit : J → X → Snap K → X × Except Err Unit) (flag : Bool) (Qs : List (Snap K)) :
    Option (J × X) → Option (J × X) → Prop
  | none, o => o = none
  | some (I, x), o => ∃ x', o = some (I, x') ∧ FittedOn (fit I) flag Qs x x'

theorem onBoth_ok (f g : Snap K → Except Err (Snap K)) (qs : List (Snap K)) (zs : Option (List (Snap K)))
    (Y : List (Snap K)) (Z : Option (List (Snap K))) : onBoth f g qs zs = .ok (Y, Z) ↔
      Forall₂ (fun q y => f q = .ok y) qs Y ∧
      Option.Rel (fun zs Z => Forall₂ (fun z w => g z = .ok w) zs Z) zs Z := by
  simp only [onBoth, ← mapM_ok_forall2]
  cases qs.mapM f with
  | error e => simp
  | ok Y' =>
    cases zs with
    | none =>
      simp only [Except.ok.injEq, Prod.mk.injEq]
      constructor
      · rintro ⟨rfl, rfl⟩; exact ⟨rfl, .none⟩
      · rintro ⟨rfl, h⟩; cases h; exact ⟨rfl, rfl⟩
    | some zs =>
      simp only
      cases h : zs.mapM g with
      | error e =>
        simp only [Except.map]
        constructor
        · intro h; cases h
        · rintro ⟨_, h'⟩
          cases h' with
          | some h' => rw [h] at h'; cases h'
      | ok Z' =>
        simp only [Except.map, Except.ok.injEq, Prod.mk.injEq]
        constructor
        · rintro ⟨rfl, rfl⟩; exact ⟨rfl, .some h⟩
        · rintro ⟨rfl, h'⟩
          cases h' with
          | some h' => rw [h] at h'; cases h'; exact ⟨rfl, rfl⟩

theorem optRel_eq {α : Type} {a b : Option (List α)} : Option.Rel (fun x y => Forall₂ (fun u v => v = u) x y) a b ↔ b = a := by
  constructor
  · intro h
    cases h with
    | none => rfl
    | some h => rw [forall₂_eq_right.mp h]
  · rintro rfl
    cases b with
    | none => exact .none
    | some b => exact .some (forall₂_eq_right.mpr rfl)

theorem tfTrain_ok (R R' : Rom K T B) (fit : Bool) (qs : List (Snap K)) (zs : Option (List (Snap K)))
    (Y : List (Snap K)) (Z : Option (List (Snap K))) : R.tfTrain fit qs zs = (R', .ok (Y, Z)) ↔
      (R'.lifter = R.lifter ∧ R'.basis = R.basis ∧ R'.continuous = R.continuous) ∧
      CompFitted TfI.fit fit qs R.transformer R'.transformer ∧
      Forall₂ (TransformedTo R'.transformer) qs Y ∧ Option.Rel (Forall₂ (LhsTransformed R')) zs Z := by
  cases ht : R.transformer with
  | none =>
    simp only [Rom.tfTrain, ht, Prod.mk.injEq, Except.ok.injEq, CompFitted]
    constructor
    · rintro ⟨rfl, rfl, rfl⟩
      refine ⟨⟨rfl, rfl, rfl⟩, ht, ?_, ?_⟩
      · rw [ht]; exact forall₂_eq_right.mpr rfl
      · have : LhsTransformed R = fun u v => v = u := by
          funext u v; simp [LhsTransformed, ht, TransformedDdt, TransformedTo]
        rw [this]; exact optRel_eq.mpr rfl
    · rintro ⟨⟨h1, h2, h3⟩, h4, h5, h6⟩
      have : R' = R := by
        cases R; cases R'; simp only at *; simp [h1, h2, h3, h4, ht]
      subst this
      refine ⟨rfl, ?_, ?_⟩
      · rw [ht] at h5; exact (forall₂_eq_right.mp h5).symm
      · have : LhsTransformed R' = fun u v => v = u := by
          funext u v; simp [LhsTransformed, ht, TransformedDdt, TransformedTo]
        rw [this] at h6; exact (optRel_eq.mp h6).symm
  | some It =>
    obtain ⟨I, t⟩ := It
    have hrel : ∀ t', LhsTransformed (⟨R.lifter, some (I, t'), R.basis, R.continuous⟩ : Rom K T B) =
        fun u v => (tfLhs I t' false R.continuous u).2 = .ok v := by
      intro t'
      funext u v
      simp only [LhsTransformed, TransformedDdt, TransformedTo, tfLhs]
      cases R.continuous <;> rfl
    simp only [Rom.tfTrain, ht, CompFitted]
    rcases hf : fitStacked I.fit t fit qs with ⟨t', e | u⟩
    · simp only [Prod.mk.injEq]
      constructor
      · rintro ⟨_, h⟩; cases h
      · rintro ⟨_, ⟨x', _, h⟩, _⟩
        rw [← fitStacked_ok, hf] at h
        cases h
    · simp only [Prod.mk.injEq, onBoth_ok]
      have hf' : ∀ x', FittedOn I.fit fit qs t x' ↔ x' = t' := by
        intro x'
        rw [← fitStacked_ok, hf]
        simp [eq_comm]
      simp only [hf']
      constructor
      · rintro ⟨rfl, h1, h2⟩
        refine ⟨⟨rfl, rfl, rfl⟩, ⟨t', rfl, rfl⟩, h1, ?_⟩
        rw [hrel]; exact h2
      · rintro ⟨⟨h1, h2, h3⟩, ⟨x', h4, rfl⟩, h5, h6⟩
        have : R' = ⟨R.lifter, some (I, x'), R.basis, R.continuous⟩ := by
          cases R'; simp only at *; simp [h1, h2, h3, h4]
        subst this
        rw [hrel] at h6
        exact ⟨rfl, h5, h6⟩

theorem basisTrain_ok (R R' : Rom K T B) (fit : Bool) (qs : List (Snap K)) (zs : Option (List (Snap K)))
    (Y : List (Snap K)) (Z : Option (List (Snap K))) : R.basisTrain fit qs zs = (R', .ok (Y, Z)) ↔
      (R'.lifter = R.lifter ∧ R'.transformer = R.transformer ∧ R'.continuous = R.continuous) ∧
      CompFitted BasI.fit fit qs R.basis R'.basis ∧
      Forall₂ (CompressedTo R'.basis) qs Y ∧ Option.Rel (Forall₂ (CompressedTo R'.basis)) zs Z := by
  cases ht : R.basis with
  | none =>
    have hc : CompressedTo (none : Option (BasI K B × B)) = fun u v => v = u := rfl
    simp only [Rom.basisTrain, ht, Prod.mk.injEq, Except.ok.injEq, CompFitted]
    constructor
    · rintro ⟨rfl, rfl, rfl⟩
      refine ⟨⟨rfl, rfl, rfl⟩, ht, ?_, ?_⟩
      · rw [ht]; exact forall₂_eq_right.mpr rfl
      · rw [ht, hc]; exact optRel_eq.mpr rfl
    · rintro ⟨⟨h1, h2, h3⟩, h4, h5, h6⟩
      have : R' = R := by
        cases R; cases R'; simp only at *; simp [h1, h2, h3, h4, ht]
      subst this
      refine ⟨rfl, ?_, ?_⟩
      · rw [ht] at h5; exact (forall₂_eq_right.mp h5).symm
      · rw [ht, hc] at h6; exact (optRel_eq.mp h6).symm
  | some It =>
    obtain ⟨I, t⟩ := It
    simp only [Rom.basisTrain, ht, CompFitted]
    rcases hf : fitStacked I.fit t fit qs with ⟨t', e | u⟩
    · simp only [Prod.mk.injEq]
      constructor
      · rintro ⟨_, h⟩; cases h
      · rintro ⟨_, ⟨x', _, h⟩, _⟩
        rw [← fitStacked_ok, hf] at h
        cases h
    · simp only [Prod.mk.injEq, onBoth_ok]
      have hf' : ∀ x', FittedOn I.fit fit qs t x' ↔ x' = t' := by
        intro x'
        rw [← fitStacked_ok, hf]
        simp [eq_comm]
      simp only [hf']
      constructor
      · rintro ⟨rfl, h1, h2⟩
        exact ⟨⟨rfl, rfl, rfl⟩, ⟨t', rfl, rfl⟩, h1, h2⟩
      · rintro ⟨⟨h1, h2, h3⟩, ⟨x', h4, rfl⟩, h5, h6⟩
        have : R' = ⟨R.lifter, R.transformer, some (I, x'), R.continuous⟩ := by
          cases R'; simp only at *; simp [h1, h2, h3, h4]
        subst this
        exact ⟨rfl, h5, h6⟩

/-! ### Columns -/

/-- The columns of an array, which for a one-dimensional array are its entries. -/
def Snap.columnList [Zero K] (Y : Snap K) : List (List K) := (atleast2d Y.toArg).2

/-- The number of rows, one for a one-dimensional array. -/
def Snap.nrows [Zero K] (Y : Snap K) : Nat := (atleast2d Y.toArg).1

theorem toArg_WF [Zero K] (Y : Snap K) : Y.toArg.WF := by
  cases Y with
  | vec xs => simp [Snap.toArg, Arg.WF, atleast2d]
  | mat k rows => simp [Snap.toArg, Arg.WF, atleast2d, transpose]

theorem columnList_length [Zero K] (Y : Snap K) : Y.columnList.length = Y.ncolumns := by
  cases Y with
  | vec xs => simp [Snap.columnList, Snap.toArg, atleast2d, Snap.ncolumns]
  | mat k rows => simp [Snap.columnList, Snap.toArg, atleast2d, Snap.ncolumns, transpose]

theorem transpose_append [Zero K] (k l : Nat) (a b : List (List K)) (h : a.length = b.length)
    (ha : ∀ x ∈ a, x.length = k) :
    transpose (k + l) (zipWith (· ++ ·) a b) = transpose k a ++ transpose l b := by
  rw [transpose, range_add, map_append]
  congr 1
  · rw [transpose]
    apply map_congr_left
    intro j hj
    rw [mem_range] at hj
    apply ext_getElem
    · simp [h]
    · intro i h1 h2
      simp only [getElem_map, getElem_zipWith]
      rw [getD_eq_getElem?_getD, getElem?_append_left (by rw [ha _ (getElem_mem _)]; exact hj),
        ← getD_eq_getElem?_getD]
  · rw [transpose, map_map]
    apply map_congr_left
    intro j hj
    rw [Function.comp_apply]
    apply ext_getElem
    · simp [h]
    · intro i h1 h2
      simp only [getElem_map, getElem_zipWith]
      have hi : i < a.length := by rw [h]; simpa using h2
      rw [getD_eq_getElem?_getD, getElem?_append_right (by rw [ha _ (getElem_mem _)]; omega), ha _ (getElem_mem _),
        ← getD_eq_getElem?_getD, Nat.add_sub_cancel_left]

theorem beside_ok [Zero K] {X Y Z : Snap K} (hX : X.WF) (hY : Y.WF) (h : X.beside Y = .ok Z) :
    Z.WF ∧ Z.columnList = X.columnList ++ Y.columnList ∧ X.nrows = Z.nrows ∧ Y.nrows = Z.nrows := by
  cases X with
  | vec xs =>
    cases Y with
    | vec ys =>
      simp only [Snap.beside, Except.ok.injEq] at h
      subst h
      exact ⟨trivial, by simp [Snap.columnList, Snap.toArg, atleast2d], rfl, rfl⟩
    | mat l b => cases h
  | mat k a =>
    cases Y with
    | vec ys => cases h
    | mat l b =>
      simp only [Snap.beside] at h
      split at h
      · rename_i hl
        simp only [Except.ok.injEq] at h
        subst h
        refine ⟨?_, ?_, ?_, ?_⟩
        · intro row hrow
          obtain ⟨i, h1, rfl⟩ := getElem_of_mem hrow
          rw [getElem_zipWith, length_append, hX _ (getElem_mem _), hY _ (getElem_mem _)]
        · exact transpose_append k l a b hl hX
        · simp [Snap.nrows, Snap.toArg, atleast2d, hl]
        · simp [Snap.nrows, Snap.toArg, atleast2d, hl]
      · cases h

theorem hstackAll_ok [Zero K] {Qs : List (Snap K)} {Q : Snap K} (hQ : ∀ X ∈ Qs, X.WF) (h : hstackAll Qs = .ok Q) :
    Q.WF ∧ Q.columnList = Qs.flatMap Snap.columnList ∧ ∀ X ∈ Qs, X.nrows = Q.nrows := by
  induction Qs generalizing Q with
  | nil => cases h
  | cons X Qs ih =>
    cases Qs with
    | nil =>
      simp only [hstackAll, Except.ok.injEq] at h
      subst h
      exact ⟨hQ _ (by simp), by simp, by simp⟩
    | cons Y Ys =>
      simp only [hstackAll, bind, Except.bind] at h
      cases hr : hstackAll (Y :: Ys) with
      | error e => simp only [hr] at h; cases h
      | ok W =>
        rw [hr] at h
        simp only at h
        obtain ⟨w1, w2, w3⟩ := ih (fun X hX => hQ X (by simp [mem_cons.mp hX])) hr
        obtain ⟨b1, b2, b3, b4⟩ := beside_ok (hQ _ (by simp)) w1 h
        refine ⟨b1, by rw [b2, w2]; rfl, ?_⟩
        intro V hV
        rcases mem_cons.mp hV with rfl | hV
        · exact b3
        · rw [w3 V hV, b4]

theorem tailCols_ok [Zero K] {Q Z : Snap K} (hQ : Q.WF) (h : Q.tailCols = .ok Z) :
    Z.WF ∧ Z.columnList = Q.columnList.tail := by
  cases Q with
  | vec xs => cases h
  | mat k rows =>
    simp only [Snap.tailCols, Except.ok.injEq] at h
    subst h
    refine ⟨?_, ?_⟩
    · intro row hrow
      obtain ⟨x, hx, rfl⟩ := mem_map.mp hrow
      rw [length_drop, hQ x hx]
    · simp only [Snap.columnList, Snap.toArg, atleast2d, transpose]
      apply ext_getElem
      · simp
      · intro i h1 h2
        simp only [getElem_map, getElem_range, getElem_tail, map_map]
        apply map_congr_left
        intro x _
        simp [getD_eq_getElem?_getD, Nat.add_comm]

theorem initCols_ok [Zero K] {Q Z : Snap K} (hQ : Q.WF) (h : Q.initCols = .ok Z) :
    Z.WF ∧ Z.columnList = Q.columnList.dropLast := by
  cases Q with
  | vec xs => cases h
  | mat k rows =>
    simp only [Snap.initCols, Except.ok.injEq] at h
    subst h
    refine ⟨?_, ?_⟩
    · intro row hrow
      obtain ⟨x, hx, rfl⟩ := mem_map.mp hrow
      rw [length_take, hQ x hx]
      omega
    · simp only [Snap.columnList, Snap.toArg, atleast2d, transpose]
      apply ext_getElem
      · simp
      · intro i h1 h2
        simp only [getElem_map, getElem_range, getElem_dropLast, map_map]
        apply map_congr_left
        intro x _
        have : i < k - 1 := by simpa using h1
        simp [getD_eq_getElem?_getD, getElem?_take, this]

theorem firstCols_columns [Zero K] (c : Nat) (U : Snap K) (hU : U.WF) :
    (U.firstCols c).WF ∧ (U.firstCols c).columnList = U.columnList.take c := by
  cases U with
  | vec xs => exact ⟨trivial, by simp [Snap.firstCols, Snap.columnList, Snap.toArg, atleast2d]⟩
  | mat k rows =>
    refine ⟨?_, ?_⟩
    · intro row hrow
      obtain ⟨x, hx, rfl⟩ := mem_map.mp hrow
      rw [length_take, hU x hx]
    · simp only [Snap.firstCols, Snap.columnList, Snap.toArg, atleast2d, transpose]
      apply ext_getElem
      · simp
      · intro i h1 h2
        simp only [getElem_map, getElem_range, getElem_take, map_map]
        apply map_congr_left
        intro x _
        have : i < c := by simp at h1; omega
        simp [getD_eq_getElem?_getD, getElem?_take, this]

end Opinf
