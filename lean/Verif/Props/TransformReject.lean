import Verif.Lemmas.SliceSel
import Verif.Lemmas.Lift
import Verif.Props.TransformInv
import Mathlib.Algebra.Order.Ring.Rat

/-!
# C115: what the transformers refuse, and what selected locations mean

`inverse_transform(states, locs=...)` takes integer positions or a slice. `Chosen` says which rows these
stand for, in Python's words and without the model's arithmetic. The theorems say exactly which arguments
the built-in transformers accept and which exception the others raise.
-/

namespace Opinf

open List

/-! ### Python's positions and slices -/

/-- Negative positions count from the end. -/
def fromEnd (n : Nat) (b : Int) : Int := if b < 0 then b + n else b

/-- `start:stop:step` with a positive step: increasing positions, beginning with the start (or 0), at
distances that are multiples of the step, before the stop. -/
structure SelectsUp (n : Nat) (start stop : Option Int) (step : Int) (ix : List Nat) : Prop where
  sorted : ix.Pairwise (· < ·)
  mem : ∀ i : Nat, i ∈ ix ↔ i < n ∧ max 0 ((start.map (fromEnd n)).getD 0) ≤ i ∧
    (∀ b ∈ stop, (i : Int) < fromEnd n b) ∧ step ∣ i - max 0 ((start.map (fromEnd n)).getD 0)

/-- `start:stop:step` with a negative step: decreasing positions, beginning with the start (or the last
row), at distances that are multiples of the step, after the stop. -/
structure SelectsDown (n : Nat) (start stop : Option Int) (step : Int) (ix : List Nat) : Prop where
  sorted : ix.Pairwise (· > ·)
  mem : ∀ i : Nat, i ∈ ix ↔ i < n ∧ (i : Int) ≤ min ((n : Int) - 1) ((start.map (fromEnd n)).getD (n - 1)) ∧
    (∀ b ∈ stop, fromEnd n b < (i : Int)) ∧
    step ∣ min ((n : Int) - 1) ((start.map (fromEnd n)).getD (n - 1)) - i

/-- The rows `ix` among `n` that `locs` stands for. -/
def Chosen (n : Nat) : Locs → List Nat → Prop
  | .idx is, ix => Forall₂ (fun (i : Int) (j : Nat) => j < n ∧ (i = j ∨ i = j - n)) is ix
  | .slice a b c, ix => (0 < c.getD 1 ∧ SelectsUp n a b (c.getD 1) ix) ∨
      (c.getD 1 < 0 ∧ SelectsDown n a b (c.getD 1) ix)

/-- `locs` asks for `p` rows (which need not exist when it is an array). -/
def AsksFor (n : Nat) (l : Locs) (p : Nat) : Prop :=
  match l with
  | .idx is => is.length = p
  | .slice _ _ _ => ∃ ix, Chosen n l ix ∧ ix.length = p

theorem SelectsUp.unique {n : Nat} {a b : Option Int} {c : Int} {xs ys : List Nat}
    (hx : SelectsUp n a b c xs) (hy : SelectsUp n a b c ys) : xs = ys := by
  refine Perm.eq_of_pairwise (le := (· < ·)) (fun a b _ _ h1 h2 => by omega) hx.sorted hy.sorted
    ((perm_ext_iff_of_nodup ?_ ?_).2 fun i => (hx.mem i).trans (hy.mem i).symm)
  · exact hx.sorted.imp fun h => by omega
  · exact hy.sorted.imp fun h => by omega

theorem SelectsDown.unique {n : Nat} {a b : Option Int} {c : Int} {xs ys : List Nat}
    (hx : SelectsDown n a b c xs) (hy : SelectsDown n a b c ys) : xs = ys := by
  refine Perm.eq_of_pairwise (le := (· > ·)) (fun a b _ _ h1 h2 => by omega) hx.sorted hy.sorted
    ((perm_ext_iff_of_nodup ?_ ?_).2 fun i => (hx.mem i).trans (hy.mem i).symm)
  · exact hx.sorted.imp fun h => by omega
  · exact hy.sorted.imp fun h => by omega

/-- C115: `locs` stands for at most one list of rows. -/
theorem C115_chosen_unique {n : Nat} {l : Locs} {xs ys : List Nat} (hx : Chosen n l xs) (hy : Chosen n l ys) :
    xs = ys := by
  cases l with
  | idx is =>
    simp only [Chosen] at hx hy
    induction hx generalizing ys with
    | nil => cases hy; rfl
    | cons h _ ih =>
      cases hy with
      | cons h' t' => rw [ih t']; congr 1; omega
  | slice a b c =>
    rcases hx with ⟨h1, hx⟩ | ⟨h1, hx⟩ <;> rcases hy with ⟨h2, hy⟩ | ⟨h2, hy⟩
    · exact hx.unique hy
    · omega
    · omega
    · exact hx.unique hy

/-- The model's slices, in terms of the specification. -/
theorem sliceIdx_chosen (n : Nat) (a b c : Option Int) :
    (c = some 0 ∧ sliceIdx n a b c = .error .value) ∨
      ∃ is : List Int, sliceIdx n a b c = .ok is ∧ (∀ i ∈ is, 0 ≤ i ∧ i < n) ∧
        Chosen n (.slice a b c) (is.map Int.toNat) := by
  by_cases h0 : c.getD 1 = 0
  · refine .inl ⟨?_, by simp only [sliceIdx, if_pos h0]⟩
    cases c with
    | none => simp at h0
    | some c => simpa using h0
  · right
    have toNat_mem : ∀ (is : List Int), (∀ i ∈ is, 0 ≤ i ∧ i < n) → ∀ j : Nat,
        j ∈ is.map Int.toNat ↔ (j : Int) ∈ is := by
      intro is hr j
      rw [mem_map]
      constructor
      · rintro ⟨i, hi, rfl⟩
        rwa [Int.toNat_of_nonneg (hr i hi).1]
      · intro h
        exact ⟨j, h, by simp⟩
    by_cases hp : 0 < c.getD 1
    · obtain ⟨is, hs, his⟩ : ∃ is, sliceIdx n a b c = .ok is ∧ is = _ :=
        ⟨_, by simp only [sliceIdx, if_neg h0, if_pos hp]; rfl, rfl⟩
      have hr := sliceIdx_range hs
      subst his
      refine ⟨_, hs, hr, .inl ⟨hp, ?_, ?_⟩⟩
      · rw [pairwise_map]
        refine (pairwise_stepsUp _ _ hp _).imp_of_mem ?_
        intro x y hx hy hxy
        have := hr x hx
        have := hr y hy
        omega
      · intro i
        rw [toNat_mem _ hr, mem_stepsUp hp]
        have hA : ∀ i : Nat, i < n → ((a.map (clipBound n 0 n)).getD 0 ≤ (i : Int) ↔
            max 0 ((a.map (fromEnd n)).getD 0) ≤ (i : Int)) ∧
            ((a.map (clipBound n 0 n)).getD 0 ≤ (i : Int) →
              (a.map (clipBound n 0 n)).getD 0 = max 0 ((a.map (fromEnd n)).getD 0)) := by
          intro i hi
          cases a with
          | none => simp
          | some a =>
            simp only [Option.map_some, Option.getD_some, clipBound, fromEnd]
            generalize (if a < 0 then a + (n : Int) else a) = a'
            split
            · omega
            · split <;> omega
        have hB : (i : Int) < (b.map (clipBound n 0 n)).getD n ↔
            i < n ∧ ∀ b' ∈ b, (i : Int) < fromEnd n b' := by
          cases b with
          | none => simp
          | some b =>
            simp only [Option.map_some, Option.getD_some, clipBound, fromEnd, Option.mem_def,
              Option.some.injEq, forall_eq']
            generalize (if b < 0 then b + (n : Int) else b) = b'
            split
            · omega
            · split <;> omega
        rw [hB]
        constructor
        · rintro ⟨h1, ⟨h2, h3⟩, h4⟩
          obtain ⟨e1, e2⟩ := hA i h2
          exact ⟨h2, e1.1 h1, h3, e2 h1 ▸ h4⟩
        · rintro ⟨h2, h1, h3, h4⟩
          obtain ⟨e1, e2⟩ := hA i h2
          exact ⟨e1.2 h1, ⟨h2, h3⟩, (e2 (e1.2 h1)).symm ▸ h4⟩
    · have hq : c.getD 1 < 0 := by omega
      obtain ⟨is, hs, his⟩ : ∃ is, sliceIdx n a b c = .ok is ∧ is = _ :=
        ⟨_, by simp only [sliceIdx, if_neg h0, if_neg hp]; rfl, rfl⟩
      have hr := sliceIdx_range hs
      subst his
      refine ⟨_, hs, hr, .inr ⟨hq, ?_, ?_⟩⟩
      · rw [pairwise_map]
        refine (pairwise_stepsDown _ _ hq _).imp_of_mem ?_
        intro x y hx hy hxy
        have := hr x hx
        have := hr y hy
        omega
      · intro i
        rw [toNat_mem _ hr, mem_stepsDown hq]
        have hA : (i : Int) ≤ (a.map (clipBound n (-1) (n - 1))).getD (n - 1) ↔
            (i : Int) ≤ min ((n : Int) - 1) ((a.map (fromEnd n)).getD (n - 1)) := by
          cases a with
          | none => simp
          | some a =>
            simp only [Option.map_some, Option.getD_some, clipBound, fromEnd]
            generalize (if a < 0 then a + (n : Int) else a) = a'
            split
            · omega
            · split <;> omega
        have hA2 : (i : Int) ≤ (a.map (clipBound n (-1) (n - 1))).getD (n - 1) →
            (a.map (clipBound n (-1) (n - 1))).getD (n - 1) =
              min ((n : Int) - 1) ((a.map (fromEnd n)).getD (n - 1)) ∧ i < n := by
          cases a with
          | none => simp; omega
          | some a =>
            simp only [Option.map_some, Option.getD_some, clipBound, fromEnd]
            generalize (if a < 0 then a + (n : Int) else a) = a'
            split
            · omega
            · split <;> omega
        have hB : i < n → ((b.map (clipBound n (-1) (n - 1))).getD (-1) < (i : Int) ↔
            ∀ b' ∈ b, fromEnd n b' < (i : Int)) := by
          intro hi
          cases b with
          | none => simp; omega
          | some b =>
            simp only [Option.map_some, Option.getD_some, clipBound, fromEnd, Option.mem_def,
              Option.some.injEq, forall_eq']
            generalize (if b < 0 then b + (n : Int) else b) = b'
            split
            · omega
            · split <;> omega
        constructor
        · rintro ⟨h1, h2, h3⟩
          obtain ⟨e1, e2⟩ := hA2 h2
          exact ⟨e2, hA.1 h2, (hB e2).1 h1, e1 ▸ h3⟩
        · rintro ⟨h1, h2, h3, h4⟩
          obtain ⟨e1, e2⟩ := hA2 (hA.2 h2)
          exact ⟨(hB h1).2 h3, hA.2 h2, e1.symm ▸ h4⟩

theorem mapM_pyIndex_iff {n : Nat} {is : List Int} {ix : List Nat} :
    is.mapM (pyIndex n) = .ok ix ↔
      Forall₂ (fun (i : Int) (j : Nat) => j < n ∧ (i = j ∨ i = j - n)) is ix := by
  rw [mapM_ok_forall2]
  constructor
  · exact Forall₂.imp fun _ _ h => pyIndex_iff.1 h
  · exact Forall₂.imp fun _ _ h => pyIndex_iff.2 h

/-- C115: which rows `locs` selects. The selection used throughout C35 is Python's: integer positions
count from the end when negative, a slice takes every `step`-th row from its start to before its stop. -/
theorem C115_selection {n : Nat} {l : Locs} {ix : List Nat} : locate n l = .ok ix ↔ Chosen n l ix := by
  cases l with
  | idx is => exact mapM_pyIndex_iff
  | slice a b c =>
    rcases sliceIdx_chosen n a b c with ⟨rfl, h⟩ | ⟨is, h, hr, hc⟩
    · simp only [locate, h, bind, Except.bind, reduceCtorEq, false_iff, Chosen, Option.getD_some]
      rintro (⟨h, _⟩ | ⟨h, _⟩) <;> omega
    · simp only [locate, h, bind, Except.bind, mapM_pyIndex_valid hr, Except.ok.injEq]
      exact ⟨fun e => e ▸ hc, fun e => C115_chosen_unique hc e⟩

/-- C115: every slice with a step other than zero selects something (perhaps no row); a slice with step
zero is refused by every transformer (second parts of the theorems below), because it selects nothing. -/
theorem C115_slice_total (n : Nat) (a b c : Option Int) :
    (∃ ix, Chosen n (.slice a b c) ix) ↔ c ≠ some 0 := by
  rcases sliceIdx_chosen n a b c with ⟨rfl, _⟩ | ⟨is, h, _, hc⟩
  · simp only [Chosen, Option.getD_some, ne_eq, not_true_eq_false, iff_false]
    rintro ⟨ix, ⟨h, _⟩ | ⟨h, _⟩⟩ <;> omega
  · refine ⟨fun _ h0 => ?_, fun _ => ⟨_, hc⟩⟩
    subst h0
    simp [sliceIdx] at h

/-- C115: the whole range, and the reversed range. -/
theorem C115_slice_all (n : Nat) : Chosen n (.slice none none none) (range n) ∧
    Chosen n (.slice none none (some (-1))) (range n).reverse := by
  refine ⟨.inl ⟨by simp, pairwise_lt_range, fun i => by simp⟩,
    .inr ⟨by simp, ?_, fun i => ?_⟩⟩
  · rw [pairwise_reverse]; exact pairwise_lt_range
  · simp; omega

/-- `checkLocs` in terms of the specification. -/
theorem checkLocs_requested {n p : Nat} {l : Locs} (h : AsksFor n l p) :
    ∃ is, checkLocs (some n) p l = .ok is ∧ is.length = p ∧
      ((∃ ix, Chosen n l ix ∧ ix.length = p ∧ is.mapM (pyIndex n) = .ok ix) ∨
        ((¬ ∃ ix, Chosen n l ix) ∧ is.mapM (pyIndex n) = .error .index)) := by
  cases l with
  | idx is =>
    simp only [AsksFor] at h
    refine ⟨is, by simp [checkLocs, bind, Except.bind, h], h, ?_⟩
    cases hm : is.mapM (pyIndex n) with
    | ok ix => exact .inl ⟨ix, mapM_pyIndex_iff.1 hm, (mapM_ok_length hm).trans h, rfl⟩
    | error e =>
      refine .inr ⟨?_, by rw [mapM_pyIndex_error hm]⟩
      rintro ⟨ix, hix⟩
      rw [mapM_pyIndex_iff.2 hix] at hm
      cases hm
  | slice a b c =>
    obtain ⟨ix, hix, hp⟩ := h
    rcases sliceIdx_chosen n a b c with ⟨rfl, _⟩ | ⟨is, h, hr, hc⟩
    · exact absurd rfl ((C115_slice_total n a b (some 0)).1 ⟨ix, hix⟩)
    · have e := C115_chosen_unique hc hix
      have hl : is.length = p := by rw [← hp, ← e, length_map]
      exact ⟨is, by simp [checkLocs, bind, Except.bind, h, hl], hl,
        .inl ⟨ix, hix, hp, by rw [mapM_pyIndex_valid hr, e]⟩⟩

theorem checkLocs_not_requested {n p : Nat} {l : Locs} (h : ¬ AsksFor n l p) :
    checkLocs (some n) p l = .error .value := by
  cases l with
  | idx is =>
    simp only [AsksFor] at h
    simp [checkLocs, bind, Except.bind, Ne.symm h]
  | slice a b c =>
    rcases sliceIdx_chosen n a b c with ⟨rfl, hs⟩ | ⟨is, hs, hr, hc⟩
    · simp [checkLocs, bind, Except.bind, hs]
    · have : p ≠ is.length := fun e => h ⟨_, hc, by rw [length_map, e]⟩
      simp [checkLocs, bind, Except.bind, hs, this]

variable {K : Type}

theorem fancy_bad [Zero K] {n : Nat} {as : List K} {is : List Int}
    (h : is.mapM (pyIndex n) = .error .index) (hn : as.length = n) : fancy as is = .error .index := by
  subst hn
  simp [fancy, h, bind, Except.bind]

/-! ### Calls with a wrong number of locations, calls with missing positions -/

theorem shift_inv_ok [Field K] {s : Shift K} {Y Z : Snap K} {l : Option Locs} {b : Bool}
    (h : s.inverse Y l = .ok Z) : shiftI.inverse s b Y l = yields b Y Z := by
  simp only [shiftI]
  exact onBuffer_ok h

theorem shift_inv_error [Field K] {s : Shift K} {Y : Snap K} {l : Option Locs} {b : Bool} {e : Err}
    (h : s.inverse Y l = .error e) : shiftI.inverse s b Y l = (Y, .error e) := by
  simp only [shiftI]
  exact onBuffer_error h

theorem scale_inv_ok [Field K] [DecidableEq K] {s : Scale K} {Y Z : Snap K} {l : Option Locs} {b : Bool}
    (h : s.inverse Y l = .ok Z) : scaleI.inverse s b Y l = yields b Y Z := by
  simp only [scaleI]
  exact onBuffer_ok h

theorem scale_inv_error [Field K] [DecidableEq K] {s : Scale K} {Y : Snap K} {l : Option Locs} {b : Bool} {e : Err}
    (h : s.inverse Y l = .error e) : scaleI.inverse s b Y l = (Y, .error e) := by
  simp only [scaleI]
  exact onBuffer_error h

theorem null_inv_ok {s : Null} {Y Z : Snap K} {l : Option Locs} {b : Bool}
    (h : s.inverse Y l = .ok Z) : nullI.inverse s b Y l = yields b Y Z := by
  simp only [nullI]
  exact onBuffer_ok h

theorem null_inv_error {s : Null} {Y : Snap K} {l : Option Locs} {b : Bool} {e : Err}
    (h : s.inverse Y l = .error e) : nullI.inverse s b Y l = (Y, .error e) := by
  simp only [nullI]
  exact onBuffer_error h

theorem sst_inv_ok [Field K] [LinearOrder K] {sqrt : K → K} {s : Sst K} {Y Z : Snap K} {l : Option Locs} {b : Bool}
    (h : s.inverse Y l = .ok Z) : (sstI sqrt).inverse s b Y l = yields b Y Z := by
  simp only [sstI]
  exact onBuffer_ok h

theorem sst_inv_error [Field K] [LinearOrder K] {sqrt : K → K} {s : Sst K} {Y : Snap K} {l : Option Locs} {b : Bool} {e : Err}
    (h : s.inverse Y l = .error e) : (sstI sqrt).inverse s b Y l = (Y, .error e) := by
  simp only [sstI]
  exact onBuffer_error h

/-- C115: the values at Python's positions come back. For every transformer that C35 calls invertible at
locations: if `ix` are the rows that `locs` stands for, then the inverse of the transformed rows `ix` are
the original rows `ix`. -/
theorem C115_rows_come_back [Zero K] {S : Type} {I : TfI K S} {s : S} {n : Nat} (h : I.InvertibleAt s n)
    {Y Z : Snap K} {c : Option Nat} {l : Locs} {ix : List Nat} (hY : Y.Shaped n c) (hZ : Z.Shaped n c)
    (hix : Chosen n l ix) (ht : I.transform s false Y = yields false Y Z) (b : Bool) :
    I.inverse s b (Z.pick ix) (some l) = yields b (Z.pick ix) (Y.pick ix) :=
  h Y Z c l ix hY hZ (C115_selection.2 hix) ht b

section Field

variable [Field K]

/-- C115, `ShiftTransformer`: `inverse_transform(Y, locs=l)` returns if `l` stands for as many rows as `Y`
has; it raises `ValueError` if it asks for another number of rows, and `IndexError` if a position does not
exist. The argument is then untouched. -/
theorem C115_shift (s : Shift K) (Y : Snap K) (l : Locs) (b : Bool) :
    (∀ ix, Chosen s.qbar.length l ix → ix.length = Y.len →
      ∃ Z, shiftI.inverse s b Y (some l) = yields b Y Z ∧ Z.len = Y.len) ∧
    (¬ AsksFor s.qbar.length l Y.len → shiftI.inverse s b Y (some l) = (Y, .error .value)) ∧
    (AsksFor s.qbar.length l Y.len → (¬ ∃ ix, Chosen s.qbar.length l ix) →
      shiftI.inverse s b Y (some l) = (Y, .error .index)) := by
  refine ⟨fun ix hix hl => ?_, fun h => ?_, fun h hno => ?_⟩
  · obtain ⟨is, hc, hm, hlen, _⟩ := locate_eq (C115_selection.2 hix)
    obtain ⟨Z, hZ, hZl⟩ := Snap.op_returns (K := K) (· + ·) (Y := Y)
      (c := .arr (ix.map fun i => s.qbar.getD i 0)) (.inl (by rw [length_map, hl]))
    refine ⟨Z, shift_inv_ok ?_, hZl⟩
    simp only [Shift.inverse, hc Y.len (by omega), fancy_eq hm rfl, bind, Except.bind]
    exact hZ
  · refine shift_inv_error ?_
    simp only [Shift.inverse, checkLocs_not_requested h, bind, Except.bind]
  · obtain ⟨is, hc, _, ⟨ix, hix, _⟩ | ⟨_, hm⟩⟩ := checkLocs_requested h
    · exact absurd ⟨ix, hix⟩ hno
    · refine shift_inv_error ?_
      simp only [Shift.inverse, hc, fancy_bad hm rfl, bind, Except.bind]

variable [DecidableEq K]

/-- C115, `ScaleTransformer` that knows its state dimension: as `C115_shift` if the scaling is an array; if
it is a number, positions are counted but not looked up. -/
theorem C115_scale {s : Scale K} {n : Nat} (hs : s.Ready n) (Y : Snap K) (l : Locs) (b : Bool) :
    (∀ ix, Chosen n l ix → ix.length = Y.len →
      ∃ Z, scaleI.inverse s b Y (some l) = yields b Y Z ∧ Z.len = Y.len) ∧
    (¬ AsksFor n l Y.len → scaleI.inverse s b Y (some l) = (Y, .error .value)) ∧
    (AsksFor n l Y.len → (¬ ∃ ix, Chosen n l ix) → s.scl.isArr = true →
      scaleI.inverse s b Y (some l) = (Y, .error .index)) ∧
    (AsksFor n l Y.len → s.scl.isArr = false →
      ∃ Z, scaleI.inverse s b Y (some l) = yields b Y Z ∧ Z.len = Y.len) := by
  have num : AsksFor n l Y.len → s.scl.isArr = false →
      ∃ Z, scaleI.inverse s b Y (some l) = yields b Y Z ∧ Z.len = Y.len := by
    intro h ha
    obtain ⟨is, hc, _, _⟩ := checkLocs_requested h
    cases hcl : s.scl with
    | arr as => simp [Coef.isArr, hcl] at ha
    | num a =>
      have h0 := hs.nz
      rw [hcl] at h0
      refine ⟨Y.rowMap fun _ y => y / a, scale_inv_ok ?_, Snap.len_rowMap _ _⟩
      simp only [Scale.inverse, hs.dim, Option.isNone_some, Bool.false_eq_true, if_false, hc, hcl, bind,
        Except.bind]
      rw [Snap.div, if_neg h0]
      rfl
  refine ⟨fun ix hix hl => ?_, fun h => ?_, fun h hno ha => ?_, num⟩
  · obtain ⟨is, hc, hm, hlen, hlt⟩ := locate_eq (C115_selection.2 hix)
    cases hcl : s.scl with
    | num a =>
      refine num ?_ (by simp [Coef.isArr, hcl])
      cases l with
      | idx is => exact ((mapM_ok_length (mapM_pyIndex_iff.2 hix)).symm.trans hl)
      | slice _ _ _ => exact ⟨ix, hix, hl⟩
    | arr as =>
      have h0 := hs.nz
      have hf := hs.fits
      rw [hcl] at h0 hf
      simp only [Coef.Fits] at hf
      obtain ⟨Z, hZ, hZl⟩ := Snap.op_returns (K := K) (· / ·) (Y := Y)
        (c := .arr (ix.map fun i => as.getD i 0)) (.inl (by rw [length_map, hl]))
      refine ⟨Z, scale_inv_ok ?_, hZl⟩
      simp only [Scale.inverse, hs.dim, Option.isNone_some, Bool.false_eq_true, if_false,
        hc Y.len (by omega), hcl, fancy_eq hm hf, bind, Except.bind]
      rw [Snap.div, if_neg]
      · exact hZ
      · simp only [Coef.entries, mem_map, not_exists, not_and]
        intro i hi h1
        have := Coef.get_ne_zero (c := .arr as) (n := n) hf h0 (hlt i hi)
        exact this h1
  · refine scale_inv_error ?_
    simp only [Scale.inverse, hs.dim, Option.isNone_some, Bool.false_eq_true, if_false,
      checkLocs_not_requested h, bind, Except.bind]
  · obtain ⟨is, hc, _, ⟨ix, hix, _⟩ | ⟨_, hm⟩⟩ := checkLocs_requested h
    · exact absurd ⟨ix, hix⟩ hno
    · cases hcl : s.scl with
      | num a => simp [Coef.isArr, hcl] at ha
      | arr as =>
        have hf := hs.fits
        rw [hcl] at hf
        refine scale_inv_error ?_
        simp only [Scale.inverse, hs.dim, Option.isNone_some, Bool.false_eq_true, if_false, hc, hcl,
          fancy_bad hm hf, bind, Except.bind]

omit [Field K] [DecidableEq K] in
/-- C115, `NullTransformer` that knows its state dimension: positions are counted but not looked up. -/
theorem C115_null {s : Null} {n : Nat} (hs : s.n = some n) (Y : Snap K) (l : Locs) (b : Bool) :
    (AsksFor n l Y.len → nullI.inverse s b Y (some l) = yields b Y Y) ∧
    (¬ AsksFor n l Y.len → nullI.inverse s b Y (some l) = (Y, .error .value)) := by
  refine ⟨fun h => ?_, fun h => ?_⟩
  · obtain ⟨is, hc, _, _⟩ := checkLocs_requested h
    refine null_inv_ok ?_
    simp only [Null.inverse, hs, hc, bind, Except.bind, pure, Except.pure]
  · refine null_inv_error ?_
    simp only [Null.inverse, hs, checkLocs_not_requested h, bind, Except.bind]

end Field

section Ordered

variable [Field K] [LinearOrder K]

/-- The inverse of the transformer looks up a parameter for each row. -/
def Sst.rowwise (s : Sst K) : Bool := s.centering || (s.byrow && s.scaling.isSome)

omit [Field K] [LinearOrder K] in
theorem requested_of_chosen {n : Nat} {l : Locs} {ix : List Nat} (h : Chosen n l ix) :
    AsksFor n l ix.length := by
  cases l with
  | idx is => exact (mapM_ok_length (mapM_pyIndex_iff.2 h)).symm
  | slice _ _ _ => exact ⟨ix, h, rfl⟩

/-- C115, calibrated `ShiftScaleTransformer` (not the case `byrow=True` without scaling, see C35): returns
if `locs` stands for as many rows as there are; `ValueError` if it asks for another number of rows;
`IndexError` if a position does not exist and a parameter has to be looked up for it; without centering
and row-wise scaling positions are counted but not looked up. -/
theorem C115_shiftscale (sqrt : K → K) {s : Sst K} {n : Nat} (hs : s.Ready n)
    (hb : s.byrow = true → s.scaling.isSome) (Y : Snap K) (l : Locs) (b : Bool) :
    (∀ ix, Chosen n l ix → ix.length = Y.len →
      ∃ Z, (sstI sqrt).inverse s b Y (some l) = yields b Y Z ∧ Z.len = Y.len) ∧
    (¬ AsksFor n l Y.len → (sstI sqrt).inverse s b Y (some l) = (Y, .error .value)) ∧
    (AsksFor n l Y.len → (¬ ∃ ix, Chosen n l ix) → s.rowwise = true →
      ((sstI sqrt).inverse s b Y (some l)).2 = .error .index) ∧
    (AsksFor n l Y.len → s.rowwise = false →
      ∃ Z, (sstI sqrt).inverse s b Y (some l) = yields b Y Z ∧ Z.len = Y.len) := by
  refine ⟨fun ix hix hl => ?_, fun h => ?_, fun h hno hr => ?_, fun h hr => ?_⟩
  · exact ⟨_, sst_inv_ok (sst_inverse_at hs hb (C115_selection.2 hix) hl.symm), Snap.len_rowMap _ _⟩
  · refine sst_inv_error ?_
    simp only [Sst.inverse, hs.trained, Bool.not_true, Bool.false_eq_true, if_false, hs.dim,
      checkLocs_not_requested h, bind, Except.bind]
  · obtain ⟨is, hc, hlen, ⟨ix, hix, _⟩ | ⟨_, hm⟩⟩ := checkLocs_requested h
    · exact absurd ⟨ix, hix⟩ hno
    · have : s.inverse Y (some l) = .error .index := by
        rw [Sst.inverse_some s Y l is hs.trained (by rw [hs.dim]; exact hc)]
        cases hbr : s.byrow with
        | true =>
          obtain ⟨a, β, ha, hβ, h1, h2, h3, h4, _⟩ := hs.scale (hb hbr)
          rw [hbr] at h1 h2
          cases β with
          | num _ => simp [Coef.isArr] at h2
          | arr bs =>
            simp only [Sst.paramsAt, hbr, Coef.at, hβ, fancy_bad hm h4, bind, Except.bind]
        | false =>
          have hcen : s.centering = true := by simpa [Sst.rowwise, hbr] using hr
          obtain ⟨mu, hmu, hl⟩ := hs.mean hcen
          have hp : s.paramsAt (some is) = .ok (s.beta, s.alpha) := by simp [Sst.paramsAt, hbr]
          have hu : ∃ Z, s.unscale (s.beta, s.alpha) Y = .ok Z := by
            unfold Sst.unscale
            cases hsc : s.scaling with
            | none => exact ⟨Y, rfl⟩
            | some sc =>
              obtain ⟨a, β, ha, hβ, h1, h2, _, _, h0⟩ := hs.scale (by simp [hsc])
              rw [hbr] at h1 h2
              cases a with
              | arr _ => simp [Coef.isArr] at h1
              | num a =>
                cases β with
                | arr _ => simp [Coef.isArr] at h2
                | num β =>
                  simp only [ha, hβ, Snap.op, bind, Except.bind]
                  exact ⟨_, by rw [Snap.div, if_neg h0]; rfl⟩
          obtain ⟨Z, hZ⟩ := hu
          simp only [hp, hZ, bind, Except.bind, Sst.uncenter, hcen, hmu, fancy_bad hm hl]
      simp only [sstI, onBuffer, this]
  · obtain ⟨is, hc, hlen, _⟩ := checkLocs_requested h
    simp only [Sst.rowwise, Bool.or_eq_false_iff] at hr
    obtain ⟨hcen, hr⟩ := hr
    have hbr : s.byrow = false := by
      cases hbr : s.byrow with
      | false => rfl
      | true => rw [hbr, hb hbr] at hr; cases hr
    have hp : s.paramsAt (some is) = .ok (s.beta, s.alpha) := by simp [Sst.paramsAt, hbr]
    have hu : ∃ Z, s.unscale (s.beta, s.alpha) Y = .ok Z ∧ Z.len = Y.len := by
      unfold Sst.unscale
      cases hsc : s.scaling with
      | none => exact ⟨Y, rfl, rfl⟩
      | some sc =>
        obtain ⟨a, β, ha, hβ, h1, h2, _, _, h0⟩ := hs.scale (by simp [hsc])
        rw [hbr] at h1 h2
        cases a with
        | arr _ => simp [Coef.isArr] at h1
        | num a =>
          cases β with
          | arr _ => simp [Coef.isArr] at h2
          | num β =>
            simp only [ha, hβ, Snap.op, bind, Except.bind]
            exact ⟨_, by rw [Snap.div, if_neg h0]; rfl, by
              simp [Snap.len_rowMap]⟩
    obtain ⟨Z, hZ, hZl⟩ := hu
    refine ⟨Z, sst_inv_ok ?_, hZl⟩
    rw [Sst.inverse_some s Y l is hs.trained (by rw [hs.dim]; exact hc)]
    simp only [hp, hZ, bind, Except.bind, Sst.uncenter, hcen]

/-! ### Construction and calibration -/

/-- A parameter that the options ask for is missing. -/
def Sst.Lacks (s : Sst K) : Prop :=
  (s.centering = true ∧ s.mean = none) ∨ (s.scaling ≠ none ∧ (s.alpha = none ∨ s.beta = none))

omit [Field K] [LinearOrder K] in
theorem isTrained_iff (s : Sst K) : s.isTrained = true ↔ ¬ s.Lacks := by
  unfold Sst.isTrained Sst.Lacks
  cases s.centering <;> cases s.mean <;> cases s.scaling <;> cases s.alpha <;> cases s.beta <;> simp

omit [Field K] [LinearOrder K] in
/-- C115: the constructor refuses exactly the norm scalings by row; a new transformer has no parameters
and the options it was given. -/
theorem C115_constructor (centering byrow verbose : Bool) (scaling : Option Scaling) (name : Option String) :
    (byrow = true ∧ (scaling = some .maxnorm ∨ scaling = some .maxnormsym) ∧
      Sst.make (K := K) centering scaling byrow name verbose = .error .value) ∨
    (¬ (byrow = true ∧ (scaling = some .maxnorm ∨ scaling = some .maxnormsym)) ∧
      ∃ s : Sst K, Sst.make centering scaling byrow name verbose = .ok s ∧ s.centering = centering ∧
        s.scaling = scaling ∧ s.byrow = byrow ∧ s.n = none ∧ s.mean = none ∧ s.alpha = none ∧
        s.beta = none ∧ (s.Lacks ↔ centering = true ∨ scaling ≠ none)) := by
  by_cases h : byrow = true ∧ (scaling = some .maxnorm ∨ scaling = some .maxnormsym)
  · exact .inl ⟨h.1, h.2, by rw [Sst.make, if_pos h]⟩
  · refine .inr ⟨h, _, by rw [Sst.make, if_neg h], rfl, rfl, rfl, rfl, rfl, rfl, rfl, ?_⟩
    simp [Sst.Lacks]

/-- C115: without its parameters the transformer raises `AttributeError` whatever the argument. -/
theorem C115_not_calibrated (sqrt : K → K) {s : Sst K} (h : s.Lacks) (Y : Snap K) (b : Bool)
    (l : Option Locs) :
    (sstI sqrt).transform s b Y = (Y, .error .attribute) ∧ (sstI sqrt).ddts s b Y = (Y, .error .attribute) ∧
    (sstI sqrt).inverse s b Y l = (Y, .error .attribute) := by
  have ht : s.isTrained = false := by
    cases ht : s.isTrained with
    | false => rfl
    | true => exact absurd h ((isTrained_iff s).1 ht)
  refine ⟨?_, ?_, sst_inv_error ?_⟩
  · simp only [sstI]
    refine onBuffer_error ?_
    simp only [Sst.transform, ht, Bool.not_false, if_true, bind, Except.bind, throw, throwThe,
      MonadExceptOf.throw]
  · simp only [sstI]
    refine onBuffer_error ?_
    simp only [Sst.ddts, ht, Bool.not_false, if_true, bind, Except.bind, throw, throwThe,
      MonadExceptOf.throw]
  · simp only [Sst.inverse, ht, Bool.not_false, if_true, bind, Except.bind, throw, throwThe,
      MonadExceptOf.throw]

/-- The parameters of the transformer apply to arrays with `p` rows. -/
structure Sst.Suits (s : Sst K) (p : Nat) : Prop where
  dim : ∀ n ∈ s.n, p = n
  mean : s.centering = true → ∀ mu ∈ s.mean, (Coef.arr mu).Broadcasts p
  scale : s.scaling ≠ none → (∀ a ∈ s.alpha, a.Broadcasts p) ∧ ∀ β ∈ s.beta, β.Broadcasts p

omit [LinearOrder K] in
theorem transform_returns_iff {s : Sst K} (h : ¬ s.Lacks) (Y : Snap K) :
    (s.Suits Y.len ∧ ∃ Z, s.transform Y = .ok Z ∧ Z.len = Y.len) ∨
      (¬ s.Suits Y.len ∧ s.transform Y = .error .value) := by
  rw [Sst.transform_steps s Y ((isTrained_iff s).2 h)]
  by_cases hd : ∀ n ∈ s.n, Y.len = n
  swap
  · right
    refine ⟨fun hs => hd hs.dim, ?_⟩
    cases hn : s.n with
    | none => simp [hn] at hd
    | some n =>
      have : Y.len ≠ n := fun e => hd (by simp [hn, e])
      simp only [checkShape_bad this, bind, Except.bind]
  have hcs : checkShape s.n Y = .ok () := by
    cases hn : s.n with
    | none => rfl
    | some n => exact checkShape_ok (hd n (by simp [hn]))
  simp only [hcs, bind, Except.bind]
  have hce : (s.centering = true → ∀ mu ∈ s.mean, (Coef.arr mu).Broadcasts Y.len) ∧
      (∃ Z, s.centerStep Y = .ok Z ∧ Z.len = Y.len) ∨
      (¬ (s.centering = true → ∀ mu ∈ s.mean, (Coef.arr mu).Broadcasts Y.len)) ∧
      s.centerStep Y = .error .value := by
    unfold Sst.centerStep
    cases hc : s.centering with
    | false => exact .inl ⟨by simp, Y, rfl, rfl⟩
    | true =>
      cases hm : s.mean with
      | none => exact .inl ⟨by simp, Y, rfl, rfl⟩
      | some mu =>
        by_cases hB : (Coef.arr mu).Broadcasts Y.len
        · exact .inl ⟨by simpa using hB, Snap.op_returns _ hB⟩
        · exact .inr ⟨by simpa using hB, Snap.op_refuses _ hB⟩
  rcases hce with ⟨h1, Z, hZ, hZl⟩ | ⟨h1, h2⟩
  swap
  · exact .inr ⟨fun hs => h1 hs.mean, by simp only [h2]⟩
  simp only [hZ]
  unfold Sst.scaleStep
  cases hs : s.scaling with
  | none => exact .inl ⟨⟨hd, h1, by simp [hs]⟩, Z, rfl, hZl⟩
  | some sc =>
    cases ha : s.alpha with
    | none => exact absurd (.inr ⟨by simp [hs], .inl ha⟩) h
    | some a =>
      cases hβ : s.beta with
      | none => exact absurd (.inr ⟨by simp [hs], .inr hβ⟩) h
      | some β =>
        simp only [bind, Except.bind]
        by_cases hA : a.Broadcasts Z.len
        · obtain ⟨W, hW, hWl⟩ := Snap.op_returns (fun x1 x2 : K => x1 * x2) hA
          simp only [hW]
          by_cases hB : β.Broadcasts W.len
          · obtain ⟨V, hV, hVl⟩ := Snap.op_returns (fun x1 x2 : K => x1 + x2) hB
            refine .inl ⟨⟨hd, h1, fun _ => ⟨?_, ?_⟩⟩, V, hV, by omega⟩
            · intro a' ha'; rw [ha] at ha'; cases ha'; rwa [← hZl]
            · intro b' hb'; rw [hβ] at hb'; cases hb'; rwa [← hZl, ← hWl]
          · refine .inr ⟨fun hs' => hB ?_, Snap.op_refuses _ hB⟩
            rw [hWl, hZl]
            exact (hs'.scale (by simp [hs])).2 β hβ
        · refine .inr ⟨fun hs' => hA ?_, by rw [Snap.op_refuses _ hA]⟩
          rw [hZl]
          exact (hs'.scale (by simp [hs])).1 a ha

/-- C115: with its parameters (learned, loaded or set by hand) the transformer transforms exactly the
arrays that have as many rows as `state_dimension` says and to which every parameter applies; it raises
`ValueError` for every other array. In particular a transformer whose `state_dimension` was changed after
the calibration refuses every array, unless its parameters have a single entry. -/
theorem C115_transform (sqrt : K → K) {s : Sst K} (h : ¬ s.Lacks) (Y : Snap K) (b : Bool) :
    (s.Suits Y.len → ∃ Z, (sstI sqrt).transform s b Y = yields b Y Z ∧ Z.len = Y.len) ∧
    (¬ s.Suits Y.len → ((sstI sqrt).transform s b Y).2 = .error .value) := by
  rcases transform_returns_iff h Y with ⟨h1, Z, hZ, hl⟩ | ⟨h1, h2⟩
  · exact ⟨fun _ => ⟨Z, by simp only [sstI]; exact onBuffer_ok hZ, hl⟩, fun h' => absurd h1 h'⟩
  · exact ⟨fun h' => absurd h' h1, fun _ => by simp only [sstI, onBuffer, h2]⟩

/-- C115: a stale dimension. -/
theorem C115_stale_dimension (sqrt : K → K) {s : Sst K} {n m : Nat} (hs : s.Ready n) (hc : s.centering = true)
    (hn : n ≠ 1) (hm : m ≠ n) (Y : Snap K) (b : Bool) :
    ((sstI sqrt).transform ((sstI sqrt).setDim s m).1 b Y).2 = .error .value := by
  obtain ⟨mu, hmu, hl⟩ := hs.mean hc
  have hL : ¬ ((sstI sqrt).setDim s m).1.Lacks := (isTrained_iff s).1 hs.trained
  refine (C115_transform sqrt hL Y b).2 fun hS => ?_
  have h1 := hS.dim m rfl
  have h2 := hS.mean hc mu hmu
  simp only [Coef.Broadcasts] at h2
  omega

end Ordered

/-! ### Examples -/

section Examples

/-- `slice(1, None, 2)`, `slice(-1, 0, -2)` and `[0, -1]` among five rows. -/
example : locate 5 (.slice (some 1) none (some 2)) = .ok [1, 3] ∧
    locate 5 (.slice (some (-1)) (some 0) (some (-2))) = .ok [4, 2] ∧
    locate 5 (.idx [0, -1]) = .ok [0, 4] ∧ Chosen 5 (.slice (some 1) none (some 2)) [1, 3] ∧
    Chosen 5 (.slice (some (-1)) (some 0) (some (-2))) [4, 2] ∧ Chosen 5 (.idx [0, -1]) [0, 4] :=
  ⟨by decide +kernel, by decide +kernel, by decide +kernel, C115_selection.1 (by decide +kernel),
    C115_selection.1 (by decide +kernel), C115_selection.1 (by decide +kernel)⟩

/-- Two rows for three locations; a position that does not exist. -/
example : ¬ AsksFor 3 (.idx [0, 1, 2]) (Snap.vec [(1 : ℚ), 2]).len ∧
    AsksFor 3 (.idx [0, 3]) (Snap.vec [(1 : ℚ), 2]).len ∧ (¬ ∃ ix, Chosen 3 (.idx [0, 3]) ix) := by
  refine ⟨by unfold AsksFor; decide +kernel, by unfold AsksFor; decide +kernel, ?_⟩
  rintro ⟨ix, h⟩
  have := C115_selection.2 h
  revert this
  have h0 : locate 3 (.idx [0, 3]) = .error .index := by decide +kernel
  rw [h0]
  exact fun h => by cases h

example : shiftI.inverse (⟨[10, 20, 30], none⟩ : Shift ℚ) false (.vec [1, 2]) (some (.idx [0, 1, 2])) =
      (.vec [1, 2], .error .value) ∧
    shiftI.inverse (⟨[10, 20, 30], none⟩ : Shift ℚ) false (.vec [1, 2]) (some (.idx [0, 3])) =
      (.vec [1, 2], .error .index) ∧
    shiftI.inverse (⟨[10, 20, 30], none⟩ : Shift ℚ) false (.vec [1, 2]) (some (.slice none none (some 2))) =
      (.vec [1, 2], .ok (.vec [11, 32])) := by
  refine ⟨?_, ?_, ?_⟩ <;> decide +kernel

/-- A centering transformer with three means and max-abs scaling by the number 2. -/
def rejSst : Sst ℚ := ⟨true, some .maxabs, false, none, false, some 3, some [1, 2, 3], some (.num 2), some (.num 0)⟩

theorem rejSst_ready : rejSst.Ready 3 where
  dim := rfl
  mean _ := ⟨[1, 2, 3], rfl, rfl⟩
  scale _ := ⟨.num 2, .num 0, rfl, rfl, rfl, rfl, trivial, trivial, by decide +kernel⟩

example : rejSst.rowwise = true ∧ ¬ rejSst.Lacks ∧ rejSst.Suits 3 ∧ ¬ rejSst.Suits 2 :=
  ⟨rfl, (isTrained_iff _).1 rejSst_ready.trained,
    ⟨fun n h => by cases h; rfl, fun _ mu h => by cases h; exact .inl rfl,
      fun _ => ⟨fun a h => by cases h; trivial, fun a h => by cases h; trivial⟩⟩,
    fun h => absurd (h.dim 3 rfl) (by decide)⟩

/-- The dimension of the transformer is changed to two: arrays with two rows and arrays with three rows are
refused. -/
example : ((sstI (fun x : ℚ => x)).transform ((sstI fun x : ℚ => x).setDim rejSst 2).1 false (.vec [1, 2])).2 =
      .error .value ∧
    ((sstI (fun x : ℚ => x)).transform ((sstI fun x : ℚ => x).setDim rejSst 2).1 false (.vec [1, 2, 3])).2 =
      .error .value :=
  ⟨C115_stale_dimension _ rejSst_ready rfl (by decide) (by decide) _ _,
    C115_stale_dimension _ rejSst_ready rfl (by decide) (by decide) _ _⟩

/-- A transformer that has a mean but lacks one of its two scaling parameters. -/
example : (⟨true, some .maxabs, false, none, false, some 3, some [1, 2, 3], some (.num 2), none⟩ : Sst ℚ).Lacks :=
  .inr ⟨by simp, .inr rfl⟩

end Examples

end Opinf
