import Verif.Model.PreFun
import Verif.Props.TransformRange
import Verif.Lemmas.Lift
import Verif.Lemmas.MonoFit
import Mathlib.Algebra.Order.Ring.Rat

/-!
# C99: `opinf.pre.shift()` and `opinf.pre.scale()`
-/

namespace Opinf

open List

variable {K : Type}

/-! ### Shifting -/

section Shift

variable [Field K]

/-- Subtracting a vector with as many entries as there are rows. -/
theorem subColumn_fits (k : Nat) (rows : List (List K)) (v : List K) (h : v.length = rows.length) :
    subColumn k rows v = .ok (.mat k (zipWith (fun a row => row.map (· - a)) v rows)) := if_pos h

theorem sub_neg_rows (v : List K) (rows : List (List K)) (h : v.length = rows.length) :
    zipWith (fun a row => row.map (· - a)) (v.map fun a => -a) (zipWith (fun a row => row.map (· - a)) v rows)
      = rows := by
  induction v generalizing rows with
  | nil => cases rows with
    | nil => rfl
    | cons r rows => cases h
  | cons a v ih =>
    cases rows with
    | nil => cases h
    | cons r rows =>
      simp only [zipWith_cons_cons, map_cons, map_map]
      rw [ih rows (by simpa using h)]
      congr 1
      conv_rhs => rw [← map_id r]
      exact map_congr_left fun x _ => by simp

theorem mapM_meanOf {rows : List (List K)} {v : List K} (h : rows.mapM meanOf = .ok v) :
    Forall₂ (fun row a => meanOf row = .ok a) rows v := mapM_ok_forall2.1 h

/-- **C99** (entries): `shift(states, v)[i, j] = states[i, j] - v[i]` for a vector of the size of a snapshot. -/
theorem C99_shift (k : Nat) (rows : List (List K)) (v : List K) (h : v.length = rows.length) :
    ∃ out, preShift (.mat k rows) (some (.vec v)) = .ok (.mat k out, none) ∧ out.length = rows.length ∧
      ∀ i (h1 : i < rows.length) (h2 : i < out.length), out[i] = rows[i].map (· - v[i]'(h ▸ h1)) := by
  refine ⟨zipWith (fun a row => row.map (· - a)) v rows, by
    rw [preShift]; simp only [shiftVector, bind, Except.bind, subColumn_fits k rows v h], ?_, ?_⟩
  · rw [length_zipWith, h, min_self]
  · intro i h1 h2
    rw [getElem_zipWith]

/-- **C99** (column vectors): an `(n, 1)` array is the same as the vector of its entries. -/
theorem C99_shift_column (Q : Snap K) (n : Nat) (v : List K) :
    preShift Q (some (.mat ⟨n, 1, v.map fun a => [a]⟩)) = preShift Q (some (.vec v)) := by
  cases Q with
  | vec _ => rfl
  | mat k rows =>
    have : shiftVector (.mat ⟨n, 1, v.map fun a => [a]⟩) = .ok v := by
      simp only [shiftVector, if_true, map_map]
      congr 1
      conv_rhs => rw [← map_id v]
      exact map_congr_left fun x _ => rfl
    have e : ∀ A : NdArg K, shiftVector A = .ok v →
        preShift (.mat k rows) (some A) = preShift (.mat k rows) (some (.vec v)) := by
      intro A hA
      simp only [preShift]
      rw [hA]
      rfl
    exact e _ this

/-- **C99** (round trip): shifting by a vector and then by its negative gives the states back. -/
theorem C99_shift_back (k : Nat) (rows : List (List K)) (v : List K) (h : v.length = rows.length) :
    ∃ Y, preShift (.mat k rows) (some (.vec v)) = .ok (Y, none) ∧
      preShift Y (some (.vec (v.map fun a => -a))) = .ok (.mat k rows, none) := by
  refine ⟨.mat k (zipWith (fun a row => row.map (· - a)) v rows), ?_, ?_⟩
  · rw [preShift]; simp only [shiftVector, bind, Except.bind, subColumn_fits k rows v h]
  · have hl : (v.map fun a => -a).length = (zipWith (fun a row => row.map (· - a)) v rows).length := by
      rw [length_map, length_zipWith, h, min_self]
    rw [preShift]
    simp only [shiftVector, bind, Except.bind, subColumn_fits k _ _ hl, sub_neg_rows v rows h]

/-- **C99** (refusals): one-dimensional states, and shifts that are neither vectors nor `(n, 1)` arrays. -/
theorem C99_shift_refused (xs : List K) (w : Option (NdArg K)) (k : Nat) (rows : List (List K)) (A : Mat K)
    (hA : A.ncols ≠ 1) : preShift (.vec xs) w = .error .value ∧
      preShift (.mat k rows) (some .other) = .error .value ∧
      preShift (.mat k rows) (some (.mat A)) = .error .value := by
  refine ⟨rfl, rfl, ?_⟩
  rw [preShift]
  simp only [shiftVector, if_neg hA]
  rfl

/-- **C99** (the defect): a vector of another size than a snapshot is refused with `ValueError` only if neither of
the two sizes is one. Otherwise the single number is subtracted everywhere, or the single row is repeated, so that
the result has another shape than the states. -/
theorem C99_shift_sizes (k : Nat) (rows : List (List K)) (v : List K) (h : v.length ≠ rows.length) :
    (v.length ≠ 1 → rows.length ≠ 1 → preShift (.mat k rows) (some (.vec v)) = .error .value) ∧
    (∀ a, v = [a] → preShift (.mat k rows) (some (.vec v))
      = .ok (.mat k (rows.map fun row => row.map (· - a)), none)) ∧
    (∀ row, rows = [row] → ∃ out, preShift (.mat k rows) (some (.vec v)) = .ok (.mat k out, none) ∧
      out.length = v.length) := by
  have hs : preShift (.mat k rows) (some (.vec v)) = (do let Y ← subColumn k rows v; .ok (Y, none)) := rfl
  refine ⟨?_, ?_, ?_⟩
  · intro h1 h2
    have : subColumn k rows v = .error .value := by
      unfold subColumn
      rw [if_neg h]
      split
      · simp at h1
      · simp at h2
      · rfl
    rw [hs, this]
    rfl
  · rintro a rfl
    rw [hs, subColumn, if_neg h]
    rfl
  · rintro row rfl
    have : subColumn k [row] v = .ok (.mat k (v.map fun a => row.map (· - a))) := by
      unfold subColumn
      rw [if_neg h]
      cases v with
      | nil => rfl
      | cons a v =>
        cases v with
        | nil => exact absurd rfl h
        | cons b v => rfl
    exact ⟨_, by rw [hs, this]; rfl, by simp⟩

/-- **C99** (`ShiftTransformer`): the transformer and the function agree. -/
theorem C99_shift_transformer (k : Nat) (rows : List (List K)) (v : List K) (name : Option String)
    (h : v.length = rows.length) :
    preShift (.mat k rows) (some (.vec v)) = (Shift.transform ⟨v, name⟩ (.mat k rows)).map fun Y => (Y, none) := by
  rw [preShift, Shift.transform]
  have e : zipWith (fun a row => row.map (· - a)) v rows
      = rows.mapIdx fun i row => row.map fun y => y - v.getD i 0 := by
    apply ext_getElem
    · rw [length_zipWith, length_mapIdx, h, min_self]
    · intro i h1 h2
      rw [getElem_zipWith, getElem_mapIdx, getD_eq_getElem v 0 (by rw [length_zipWith] at h1; omega)]
  simp only [shiftVector, bind, Except.bind, subColumn_fits k rows v h, e, checkShape, Snap.len, h, if_true]
  simp only [Snap.op, Snap.len, h, if_true, Snap.rowMap, Except.map]

end Shift

section Learn

variable [Field K] [LinearOrder K] [IsStrictOrderedRing K]

/-- **C99** (learned shift): without `shift_by`, the rows of the result have mean zero, the second result is the mean
snapshot, shifting by it gives the same states, and shifting by its negative gives the original states back. -/
theorem C99_shift_learned (k : Nat) (rows : List (List K)) (Y : Snap K) (w : Option (List K))
    (hf : preShift (.mat k rows) none = .ok (Y, w)) :
    ∃ v out, w = some v ∧ Y = .mat k out ∧
      Forall₂ (fun (row : List K) (a : K) => row ≠ [] ∧ a = row.sum / (row.length : K)) rows v ∧
      (∀ row ∈ out, row.sum = 0) ∧
      preShift (.mat k rows) (some (.vec v)) = .ok (Y, none) ∧
      preShift Y (some (.vec (v.map fun a => -a))) = .ok (.mat k rows, none) := by
  rw [preShift] at hf
  cases hm : rows.mapM meanOf with
  | error e => rw [hm] at hf; cases hf
  | ok v =>
    rw [hm] at hf
    have h2 := mapM_meanOf hm
    have hl : v.length = rows.length := h2.length_eq.symm
    simp only [bind, Except.bind, subColumn_fits k rows v hl, Except.ok.injEq, Prod.mk.injEq] at hf
    obtain ⟨rfl, rfl⟩ := hf
    obtain ⟨Y', e1, e2⟩ := C99_shift_back k rows v hl
    have e3 : Y' = .mat k (zipWith (fun a row => row.map (· - a)) v rows) := by
      rw [preShift] at e1
      simp only [shiftVector, bind, Except.bind, subColumn_fits k rows v hl, Except.ok.injEq, Prod.mk.injEq] at e1
      exact e1.1.symm
    subst e3
    refine ⟨v, _, rfl, rfl, h2.imp fun row a h => meanOf_ne h, ?_, e1, e2⟩
    intro row hrow
    clear e1 e2 hm hl
    induction h2 with
    | nil => simp at hrow
    | @cons r a rs as h _ ih =>
      rcases mem_cons.1 (by simpa using hrow) with rfl | h'
      · have := sum_affine 1 (-a) r
        simp only [one_mul, ← sub_eq_add_neg] at this
        rw [this]
        have := meanOf_sum h
        linarith
      · exact ih h'

/-- **C99** (learned shift, when): it succeeds exactly for two-dimensional states with at least one entry in each
row. -/
theorem C99_shift_learns_iff (k : Nat) (rows : List (List K)) :
    (∃ r, preShift (.mat k rows) none = .ok r) ↔ ∀ row ∈ rows, row ≠ [] := by
  constructor
  · rintro ⟨⟨Y, w⟩, h⟩
    obtain ⟨v, _, -, -, h2, -⟩ := C99_shift_learned k rows Y w h
    intro row hrow
    obtain ⟨i, hi, rfl⟩ := mem_iff_getElem.1 hrow
    exact ((forall₂_iff_get.1 h2).2 i hi (h2.length_eq ▸ hi)).1
  · intro h
    have : ∃ v, rows.mapM meanOf = .ok v := by
      apply mapM_exists_ok.2
      intro row hrow
      exact ⟨row.sum / row.length, by rw [meanOf, if_neg (by simpa using h row hrow)]⟩
    obtain ⟨v, hv⟩ := this
    refine ⟨(.mat k (zipWith (fun a row => row.map (· - a)) v rows), some v), ?_⟩
    rw [preShift]
    simp only [hv, bind, Except.bind, subColumn_fits k rows v (mapM_meanOf hv).length_eq.symm]

/-! ### Scaling -/

omit [Field K] [LinearOrder K] [IsStrictOrderedRing K] in
theorem mapIdx_eq_map_const {α β : Type} (f : α → β) (xs : List α) : xs.mapIdx (fun _ y => f y) = xs.map f := by
  apply ext_getElem <;> simp

omit [Field K] [LinearOrder K] [IsStrictOrderedRing K] in
theorem entries_rowMap (f : K → K) (Q : Snap K) : (Q.rowMap fun _ y => f y).entries = Q.entries.map f := by
  cases Q with
  | vec xs =>
    simp only [Snap.rowMap, Snap.entries]
    exact mapIdx_eq_map_const f xs
  | mat k rows =>
    simp only [Snap.rowMap, Snap.entries, map_flatten]
    rw [mapIdx_eq_map_const]

omit [LinearOrder K] [IsStrictOrderedRing K] in
/-- The formula of the documentation. -/
theorem scale_formula (a b c d y : K) (h : d - c ≠ 0) :
    y * ((b - a) / (d - c)) + (a - c * ((b - a) / (d - c))) = (y - c) / (d - c) * (b - a) + a := by
  field_simp
  ring

omit [IsStrictOrderedRing K] in
/-- **C99** (entries): with given bounds, every entry is mapped by the documented formula; equal bounds raise
`ZeroDivisionError` and other numbers of bounds `ValueError`. -/
theorem C99_scale (Q : Snap K) (a b c d : K) :
    (d ≠ c → preScale Q [a, b] (some [c, d]) = .ok (Q.rowMap fun _ y => (y - c) / (d - c) * (b - a) + a, none)) ∧
    (preScale Q [a, b] (some [c, c]) = .error .zeroDivision) ∧
    (∀ p q : List K, p.length ≠ 2 ∨ q.length ≠ 2 → preScale Q p (some q) = .error .value) := by
  refine ⟨fun h => ?_, ?_, ?_⟩
  · have h' : d - c ≠ 0 := sub_ne_zero.2 h
    simp only [preScale, if_neg h', scaleBy]
    congr 2
    congr 1
    funext _ y
    exact scale_formula a b c d y h'
  · simp [preScale]
  · intro p q hpq
    unfold preScale
    simp only
    split
    · simp at hpq
    · rfl

omit [IsStrictOrderedRing K] in
/-- **C99** (round trip): scaling from `[c, d]` to `[a, b]` and back gives the states back, if `a ≠ b`. -/
theorem C99_scale_back (Q : Snap K) (a b c d : K) (hab : b ≠ a) (hcd : d ≠ c) :
    ∃ Y, preScale Q [a, b] (some [c, d]) = .ok (Y, none) ∧ preScale Y [c, d] (some [a, b]) = .ok (Q, none) := by
  refine ⟨_, (C99_scale Q a b c d).1 hcd, ?_⟩
  rw [(C99_scale _ c d a b).1 hab, Snap.rowMap_rowMap]
  congr 2
  apply Snap.rowMap_eq_self
  intro i _ y
  have h1 : b - a ≠ 0 := sub_ne_zero.2 hab
  have h2 : d - c ≠ 0 := sub_ne_zero.2 hcd
  field_simp
  ring

/-- **C99** (learned scaling): without `scale_from`, the bounds are the extreme entries; the scaled entries have range
exactly `[a, b]` for `a ≤ b`; scaling with the returned bounds gives the same result; and scaling with the bounds
exchanged gives the states back, if `a ≠ b`. -/
theorem C99_scale_learned (Q Y : Snap K) (dst : List K) (w : Option (List K × List K))
    (hf : preScale Q dst none = .ok (Y, w)) :
    ∃ a b c d, dst = [a, b] ∧ w = some ([a, b], [c, d]) ∧ RangeExactly c d Q.entries ∧ c < d ∧
      preScale Q [a, b] (some [c, d]) = .ok (Y, none) ∧
      (a ≤ b → RangeExactly a b Y.entries) ∧ (b ≤ a → RangeExactly b a Y.entries) ∧
      (a ≠ b → preScale Y [c, d] (some [a, b]) = .ok (Q, none)) := by
  rw [preScale] at hf
  cases h1 : minOf Q.entries with
  | error e => rw [h1] at hf; cases hf
  | ok c =>
    cases h2 : maxOf Q.entries with
    | error e => rw [h1, h2] at hf; cases hf
    | ok d =>
      rw [h1, h2] at hf
      simp only [bind, Except.bind] at hf
      split at hf
      · rename_i a b
        split at hf
        · cases hf
        · rename_i hne
          simp only [Except.ok.injEq, Prod.mk.injEq] at hf
          obtain ⟨rfl, rfl⟩ := hf
          obtain ⟨m1, m2⟩ := minOf_spec h1
          obtain ⟨n1, n2⟩ := maxOf_spec h2
          have hlt : c < d := lt_of_le_of_ne (m2 d n1) fun e => hne (by rw [e, sub_self])
          have hgiven : preScale Q [a, b] (some [c, d]) = .ok (scaleBy Q a b c d, none) := by
            simp only [preScale, if_neg hne]
          have hentries : (scaleBy Q a b c d).entries = Q.entries.map fun y => (y - c) / (d - c) * (b - a) + a := by
            rw [scaleBy, entries_rowMap]
            exact map_congr_left fun y _ => scale_formula a b c d y hne
          have hpos : 0 < d - c := sub_pos.2 hlt
          have hunit : ∀ y ∈ Q.entries, 0 ≤ (y - c) / (d - c) ∧ (y - c) / (d - c) ≤ 1 := fun y hy =>
            ⟨div_nonneg (sub_nonneg.2 (m2 y hy)) hpos.le, (div_le_one hpos).2 (sub_le_sub_right (n2 y hy) c)⟩
          have hlo : a ∈ (scaleBy Q a b c d).entries := by
            rw [hentries]; exact mem_map.2 ⟨c, m1, by simp⟩
          have hhi : b ∈ (scaleBy Q a b c d).entries := by
            rw [hentries]; exact mem_map.2 ⟨d, n1, by rw [div_self hne]; ring⟩
          refine ⟨a, b, c, d, rfl, rfl, ⟨fun y hy => ⟨m2 y hy, n2 y hy⟩, m1, n1⟩, hlt, hgiven, ?_, ?_, ?_⟩
          · intro hab
            refine ⟨fun z hz => ?_, hlo, hhi⟩
            rw [hentries] at hz
            obtain ⟨y, hy, rfl⟩ := mem_map.1 hz
            obtain ⟨u1, u2⟩ := hunit y hy
            constructor <;> nlinarith
          · intro hab
            refine ⟨fun z hz => ?_, hhi, hlo⟩
            rw [hentries] at hz
            obtain ⟨y, hy, rfl⟩ := mem_map.1 hz
            obtain ⟨u1, u2⟩ := hunit y hy
            constructor <;> nlinarith
          · intro hab
            obtain ⟨Y', e1, e2⟩ := C99_scale_back Q a b c d (Ne.symm hab) hlt.ne'
            rw [hgiven] at e1
            simp only [Except.ok.injEq, Prod.mk.injEq, and_true] at e1
            rw [e1]
            exact e2
      · cases hf

/-- **C99** (learned scaling, when): it succeeds exactly if two bounds are given and two entries differ. -/
theorem C99_scale_learns_iff (Q : Snap K) (dst : List K) :
    (∃ r, preScale Q dst none = .ok r) ↔ dst.length = 2 ∧ ∃ x ∈ Q.entries, ∃ y ∈ Q.entries, x ≠ y := by
  constructor
  · rintro ⟨⟨Y, w⟩, h⟩
    obtain ⟨a, b, c, d, rfl, -, hr, hlt, -⟩ := C99_scale_learned Q Y dst w h
    exact ⟨rfl, c, hr.2.1, d, hr.2.2, hlt.ne⟩
  · rintro ⟨h2, x, hx, y, hy, hxy⟩
    have hne : Q.entries ≠ [] := fun e => by rw [e] at hx; cases hx
    obtain ⟨c, hc⟩ : ∃ c, minOf Q.entries = .ok c := by
      cases hq : Q.entries with
      | nil => exact absurd hq hne
      | cons z zs => exact ⟨_, rfl⟩
    obtain ⟨d, hd⟩ : ∃ d, maxOf Q.entries = .ok d := by
      cases hq : Q.entries with
      | nil => exact absurd hq hne
      | cons z zs => exact ⟨_, rfl⟩
    obtain ⟨-, m2⟩ := minOf_spec hc
    obtain ⟨-, n2⟩ := maxOf_spec hd
    have hcd : d - c ≠ 0 := by
      intro e
      have : d = c := sub_eq_zero.1 e
      exact hxy (le_antisymm ((n2 x hx).trans (this ▸ m2 y hy)) ((n2 y hy).trans (this ▸ m2 x hx)))
    match dst, h2 with
    | [a, b], _ =>
      exact ⟨(scaleBy Q a b c d, some ([a, b], [c, d])), by
        rw [preScale]; simp only [hc, hd, bind, Except.bind, if_neg hcd]⟩

/-- **C99** (learned scaling, refusals): without entries or with other than two bounds a `ValueError` is raised; with
equal entries the result is not finite. -/
theorem C99_scale_learned_refused (Q : Snap K) (dst : List K) :
    (Q.entries = [] ∨ dst.length ≠ 2 → preScale Q dst none = .error .value) ∧
    (∀ x, Q.entries ≠ [] → dst.length = 2 → (∀ y ∈ Q.entries, y = x) → preScale Q dst none = .error .nonfinite) := by
  have hmin : ∀ {l : List K}, l ≠ [] → ∃ c, minOf l = .ok c := fun {l} hl => by
    cases l with
    | nil => exact absurd rfl hl
    | cons z zs => exact ⟨_, rfl⟩
  have hmax : ∀ {l : List K}, l ≠ [] → ∃ c, maxOf l = .ok c := fun {l} hl => by
    cases l with
    | nil => exact absurd rfl hl
    | cons z zs => exact ⟨_, rfl⟩
  constructor
  · intro h
    by_cases he : Q.entries = []
    · rw [preScale, he]
      rfl
    · obtain ⟨c, hc⟩ := hmin he
      obtain ⟨d, hd⟩ := hmax he
      have h2 := h.resolve_left he
      unfold preScale
      simp only [hc, hd, bind, Except.bind]
      split
      · simp at h2
      · rfl
  · intro x he h2 hall
    obtain ⟨c, hc⟩ := hmin he
    obtain ⟨d, hd⟩ := hmax he
    have e : d - c = 0 := by rw [hall c (minOf_spec hc).1, hall d (maxOf_spec hd).1, sub_self]
    match dst, h2 with
    | [a, b], _ =>
      rw [preScale]
      simp only [hc, hd, bind, Except.bind, if_pos e]

/-! ### The transformer classes -/

omit [IsStrictOrderedRing K] in
theorem centered_eq {s' : Sst K} {rows : List (List K)} {v : List K} (hc : s'.centering = true)
    (hm : s'.mean = some v) (hl : v.length = rows.length) :
    centered s' rows = zipWith (fun a row => row.map (· - a)) v rows := by
  apply ext_getElem
  · rw [centered, length_mapIdx, length_zipWith, hl, min_self]
  · intro i h1 h2
    have hi : i < v.length := by rw [length_zipWith] at h2; omega
    simp only [centered, getElem_mapIdx, getElem_zipWith, Sst.center, hc, hm, if_true, Option.map_some,
      Option.getD_some]
    rw [getD_eq_getElem v 0 hi]

omit [IsStrictOrderedRing K] in
theorem centered_none {s' : Sst K} {rows : List (List K)} (hc : s'.centering = false) :
    centered s' rows = rows := by
  apply ext_getElem
  · rw [centered, length_mapIdx]
  · intro i h1 h2
    simp [centered, Sst.center, hc]

/-- The data on which the scaling is learned are the shifted states. -/
def Shifted (centering : Bool) (k : Nat) (rows out : List (List K)) : Prop :=
  if centering then ∃ v, preShift (.mat k rows) none = .ok (.mat k out, some v) else out = rows

theorem fit_shifted {sqrt : K → K} {s s' : Sst K} {k : Nat} {rows : List (List K)} {Z : Snap K}
    (h : FitOk sqrt s s' k rows Z) : Shifted s.centering k rows (centered s' rows) := by
  cases hc : s.centering with
  | false => exact centered_none (h.centering.trans hc)
  | true =>
    obtain ⟨v, hv, hm⟩ := h.mean hc
    have hl : v.length = rows.length := (mapM_meanOf hm).length_eq.symm
    refine ⟨v, ?_⟩
    rw [preShift, centered_eq (h.centering.trans hc) hv hl]
    simp only [hm, bind, Except.bind, subColumn_fits k rows v hl]

theorem rowMap_centered (s' : Sst K) (k : Nat) (rows : List (List K)) (f : K → K) :
    ((Snap.mat k (centered s' rows)).rowMap fun _ y => f y)
      = (Snap.mat k rows).rowMap fun i y => f (y - s'.center i) := by
  have : Snap.mat k (centered s' rows) = (Snap.mat k rows).rowMap fun i y => y - s'.center i := rfl
  rw [this, Snap.rowMap_rowMap]

/-- **C99** (`ShiftScaleTransformer`, centering): fitting a transformer that only centers gives `shift(states)`. -/
theorem C99_centering {sqrt : K → K} {s s' : Sst K} {k : Nat} {rows : List (List K)} {Z : Snap K}
    (hc : s.centering = true) (hs : s.scaling = none)
    (h : s.fitTransform sqrt (.mat k rows) = (s', .ok Z)) :
    ∃ v, preShift (.mat k rows) none = .ok (Z, some v) ∧ s'.mean = some v := by
  have hf := sst_fit_ok h
  obtain ⟨v, hv, hm⟩ := hf.mean hc
  have hl : v.length = rows.length := (mapM_meanOf hm).length_eq.symm
  have e : Z = .mat k (centered s' rows) := by
    rw [hf.result]
    have := rowMap_centered s' k rows id
    simp only [id] at this
    rw [Snap.rowMap_id] at this
    rw [this]
    apply Snap.rowMap_congr
    intro i _ y
    simp [Sst.factor, Sst.offset, hf.scaling, hs]
  refine ⟨v, ?_, hv⟩
  rw [preShift, e, centered_eq (hf.centering.trans hc) hv hl]
  simp only [hm, bind, Except.bind, subColumn_fits k rows v hl]

theorem fit_scaled {sqrt : K → K} {s s' : Sst K} {k : Nat} {rows : List (List K)} {Z : Snap K} {sc : Scaling}
    (hs : s.scaling = some sc) (hf : FitOk sqrt s s' k rows Z) (A B lo hi : K)
    (ha : s'.alpha = some (.num A)) (hb : s'.beta = some (.num B)) (a b : K)
    (hlo : minOf (centered s' rows).flatten = .ok lo) (hhi : maxOf (centered s' rows).flatten = .ok hi)
    (hne : hi - lo ≠ 0) (hA : A = (b - a) / (hi - lo)) (hB : B = a - lo * A) :
    preScale (.mat k (centered s' rows)) [a, b] none = .ok (Z, some ([a, b], [lo, hi])) := by
  rw [preScale]
  simp only [Snap.entries, hlo, hhi, bind, Except.bind, if_neg hne]
  congr 2
  rw [hf.result, scaleBy, rowMap_centered s' k rows
    fun y => y * ((b - a) / (hi - lo)) + (a - lo * ((b - a) / (hi - lo)))]
  apply Snap.rowMap_congr
  intro i _ y
  simp only [Sst.factor, Sst.offset, hf.scaling, hs, ha, hb, Option.isSome_some, if_true, Option.map_some,
    Option.getD_some, Coef.get, hB, hA]
  ring

theorem recip_num {a x : K} {c : Coef K} (h : (Coef.num x).recip a = .ok c) : x ≠ 0 ∧ c = .num (a / x) := by
  unfold Coef.recip at h
  split at h
  · cases h
  · rename_i hne
    refine ⟨fun e => hne (by simp [Coef.entries, e]), ?_⟩
    exact (Except.ok.inj h).symm

/-- **C99** (`ShiftScaleTransformer`, `"minmax"`): fitting a transformer that scales all entries together gives
`scale(states, (0, 1))`, applied to `shift(states)` if the transformer centers. -/
theorem C99_minmax {sqrt : K → K} {s s' : Sst K} {k : Nat} {rows : List (List K)} {Z : Snap K}
    (hs : s.scaling = some .minmax) (hb : s.byrow = false)
    (h : s.fitTransform sqrt (.mat k rows) = (s', .ok Z)) :
    ∃ out w, Shifted s.centering k rows out ∧ preScale (.mat k out) [0, 1] none = .ok (Z, w) := by
  have hf := sst_fit_ok h
  obtain ⟨a, b, h1, h2, hl⟩ := hf.learned _ hs
  refine ⟨centered s' rows, ?_⟩
  rw [hb] at hl
  simp only [learnScaling, stat] at hl
  cases hlo : minOf (centered s' rows).flatten with
  | error e => rw [hlo] at hl; cases hl
  | ok lo =>
    cases hhi : maxOf (centered s' rows).flatten with
    | error e => rw [hlo, hhi] at hl; cases hl
    | ok hi =>
      rw [hlo, hhi] at hl
      simp only [bind, Except.bind, pure, Except.pure, Bool.false_eq_true, if_false] at hl
      cases hr : ((Coef.num hi).zip (· - ·) (Coef.num lo)).recip 1 with
      | error e => rw [hr] at hl; cases hl
      | ok c =>
        rw [hr] at hl
        obtain ⟨hne, rfl⟩ := recip_num (x := hi - lo) hr
        simp only [Except.ok.injEq, Prod.mk.injEq] at hl
        obtain ⟨rfl, rfl⟩ := hl
        exact ⟨_, fit_shifted hf, fit_scaled hs hf _ _ lo hi h1 h2 0 1 hlo hhi hne (by rw [sub_zero]) (by ring)⟩

/-- **C99** (`ShiftScaleTransformer`, `"minmaxsym"`): likewise with `scale(states, (-1, 1))`. -/
theorem C99_minmaxsym {sqrt : K → K} {s s' : Sst K} {k : Nat} {rows : List (List K)} {Z : Snap K}
    (hs : s.scaling = some .minmaxsym) (hb : s.byrow = false)
    (h : s.fitTransform sqrt (.mat k rows) = (s', .ok Z)) :
    ∃ out w, Shifted s.centering k rows out ∧ preScale (.mat k out) [-1, 1] none = .ok (Z, w) := by
  have hf := sst_fit_ok h
  obtain ⟨a, b, h1, h2, hl⟩ := hf.learned _ hs
  refine ⟨centered s' rows, ?_⟩
  rw [hb] at hl
  simp only [learnScaling, stat] at hl
  cases hlo : minOf (centered s' rows).flatten with
  | error e => rw [hlo] at hl; cases hl
  | ok lo =>
    cases hhi : maxOf (centered s' rows).flatten with
    | error e => rw [hlo, hhi] at hl; cases hl
    | ok hi =>
      rw [hlo, hhi] at hl
      simp only [bind, Except.bind, pure, Except.pure, Bool.false_eq_true, if_false] at hl
      cases hr : ((Coef.num hi).zip (· - ·) (Coef.num lo)).recip 2 with
      | error e => rw [hr] at hl; cases hl
      | ok c =>
        rw [hr] at hl
        obtain ⟨hne, rfl⟩ := recip_num (x := hi - lo) hr
        simp only [Except.ok.injEq, Prod.mk.injEq] at hl
        obtain ⟨rfl, rfl⟩ := hl
        refine ⟨_, fit_shifted hf, fit_scaled hs hf _ _ lo hi h1 h2 (-1) 1 hlo hhi hne ?_ (by ring)⟩
        congr 1
        norm_num

end Learn

/-! ### Instances and the documented ranges -/

/-- Two rows and three snapshots. -/
def preStates : Snap Rat := .mat 3 [[1, 2, 6], [0, 4, 2]]

example : preShift preStates none = .ok (.mat 3 [[-2, -1, 3], [-2, 2, 0]], some [3, 2]) := by decide +kernel
example : preShift preStates (some (.vec [1, 2])) = .ok (.mat 3 [[0, 1, 5], [-2, 2, 0]], none) := by
  decide +kernel
example : preShift preStates (some (.vec [1, 2, 3])) = .error .value := by decide +kernel
example : preScale preStates [0, 1] none
    = .ok (.mat 3 [[1/6, 1/3, 1], [0, 2/3, 1/3]], some ([0, 1], [0, 6])) := by decide +kernel
example : preScale preStates [0, 1] (some [1, 1]) = .error .zeroDivision := by decide +kernel
example : preScale (.mat 2 [[1, 1]] : Snap Rat) [0, 1] none = .error .nonfinite := by decide +kernel
example : ((Sst.make true (some .minmaxsym) false none false : Except Err (Sst Rat)).map fun s =>
    (s.fitTransform (fun x => x) preStates).2)
    = .ok (.ok (.mat 3 [[-1, -3/5, 1], [-1, 3/5, -1/5]])) := by decide +kernel

/-- **C99** (the defect, concretely): a single number, given as a vector, is accepted for states with two rows; and a
vector of two numbers for states with one row, where the result has two rows. -/
theorem C99_shift_broadcasts :
    preShift preStates (some (.vec [1])) = .ok (.mat 3 [[0, 1, 5], [-1, 3, 1]], none) ∧
    preShift (.mat 2 [[5, 7]] : Snap Rat) (some (.vec [1, 2])) = .ok (.mat 2 [[4, 6], [3, 5]], none) := by
  constructor <;> decide +kernel

/-- **C99** (the defect): with decreasing bounds the documented `scaled_to[0] = min(states_scaled)` fails: the first
of the returned bounds is the largest entry. -/
theorem C99_scale_decreasing :
    ∃ Y, preScale preStates [1, 0] none = .ok (Y, some ([1, 0], [0, 6])) ∧ minOf Y.entries = .ok 0 ∧
      maxOf Y.entries = .ok 1 :=
  ⟨.mat 3 [[5/6, 2/3, 0], [1, 1/3, 2/3]], by decide +kernel, by decide +kernel, by decide +kernel⟩

end Opinf
