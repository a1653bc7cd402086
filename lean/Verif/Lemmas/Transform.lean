import Verif.Props.TransformSpec
import Mathlib.Tactic.Ring
import Mathlib.Tactic.FieldSimp

/-! # Helper lemmas about arrays of states -/

namespace Opinf

open List

variable {K : Type}

/-! ### `mapM` for exceptions -/

theorem mapM_ok_length {α β : Type} {f : α → Except Err β} {l : List α} {r : List β}
    (h : l.mapM f = .ok r) : r.length = l.length := by
  induction l generalizing r with
  | nil => simp only [mapM_nil, pure, Except.pure, Except.ok.injEq] at h; subst h; rfl
  | cons a l ih =>
    simp only [mapM_cons, bind, Except.bind, pure, Except.pure] at h
    split at h
    · cases h
    · split at h
      · cases h
      · rename_i hr
        simp only [Except.ok.injEq] at h
        subst h
        simp [ih hr]

theorem mapM_ok_getD {α β : Type} {f : α → Except Err β} {l : List α} {r : List β} (a : α) (b : β)
    (h : l.mapM f = .ok r) (i : Nat) (hi : i < l.length) : f (l.getD i a) = .ok (r.getD i b) := by
  induction l generalizing r i with
  | nil => simp at hi
  | cons x l ih =>
    simp only [mapM_cons, bind, Except.bind, pure, Except.pure] at h
    split at h
    · cases h
    · split at h
      · cases h
      · rename_i hx _ _ hr
        simp only [Except.ok.injEq] at h
        subst h
        cases i with
        | zero => simpa using hx
        | succ i => simpa using ih hr i (by simpa using hi)

theorem mapM_ok_mem {α β : Type} {f : α → Except Err β} {l : List α} {r : List β}
    (h : l.mapM f = .ok r) : ∀ y ∈ r, ∃ x ∈ l, f x = .ok y := by
  induction l generalizing r with
  | nil => simp only [mapM_nil, pure, Except.pure, Except.ok.injEq] at h; subst h; simp
  | cons a l ih =>
    simp only [mapM_cons, bind, Except.bind, pure, Except.pure] at h
    split at h
    · cases h
    · split at h
      · cases h
      · rename_i hx _ _ hr
        simp only [Except.ok.injEq] at h
        subst h
        intro y hy
        rcases mem_cons.1 hy with rfl | hy
        · exact ⟨a, by simp, hx⟩
        · obtain ⟨x, hx, h⟩ := ih hr y hy
          exact ⟨x, by simp [hx], h⟩

/-! ### Row maps -/

theorem Snap.len_rowMap (f : Nat → K → K) (Y : Snap K) : (Y.rowMap f).len = Y.len := by
  cases Y <;> simp [Snap.rowMap, Snap.len]

theorem Snap.cols_rowMap (f : Nat → K → K) (Y : Snap K) : (Y.rowMap f).cols = Y.cols := by
  cases Y <;> rfl

theorem Snap.WF.rowMap (f : Nat → K → K) {Y : Snap K} (h : Y.WF) : (Y.rowMap f).WF := by
  cases Y with
  | vec xs => trivial
  | mat k rows =>
    intro row hr
    obtain ⟨i, hi, rfl⟩ := mem_mapIdx.1 hr
    simpa using h _ (getElem_mem hi)

theorem Snap.Shaped.rowMap (f : Nat → K → K) {Y : Snap K} {n : Nat} {c : Option Nat}
    (h : Y.Shaped n c) : (Y.rowMap f).Shaped n c :=
  ⟨h.wf.rowMap f, by rw [Snap.len_rowMap, h.len], by rw [Snap.cols_rowMap, h.cols]⟩

theorem Snap.rowMap_rowMap (f g : Nat → K → K) (Y : Snap K) :
    (Y.rowMap f).rowMap g = Y.rowMap fun i y => g i (f i y) := by
  cases Y with
  | vec xs => simp [Snap.rowMap, mapIdx_mapIdx, Function.comp_def]
  | mat k rows => simp [Snap.rowMap, mapIdx_mapIdx, Function.comp_def]

theorem Snap.rowMap_congr {f g : Nat → K → K} {Y : Snap K} (h : ∀ i < Y.len, ∀ y, f i y = g i y) :
    Y.rowMap f = Y.rowMap g := by
  cases Y with
  | vec xs =>
    simp only [Snap.rowMap, Snap.vec.injEq]
    apply ext_getElem (by simp)
    intro i h1 h2
    simp only [getElem_mapIdx]
    exact h i (by simpa [Snap.len] using h1) _
  | mat k rows =>
    simp only [Snap.rowMap, Snap.mat.injEq, true_and]
    apply ext_getElem (by simp)
    intro i h1 h2
    simp only [getElem_mapIdx]
    exact map_congr_left fun y _ => h i (by simpa [Snap.len] using h1) y

theorem Snap.rowMap_id (Y : Snap K) : Y.rowMap (fun _ y => y) = Y := by
  cases Y with
  | vec xs =>
    simp only [Snap.rowMap, Snap.vec.injEq]
    apply ext_getElem (by simp)
    simp
  | mat k rows =>
    simp only [Snap.rowMap, Snap.mat.injEq, true_and]
    apply ext_getElem (by simp)
    simp

theorem Snap.rowMap_eq_self {f : Nat → K → K} {Y : Snap K} (h : ∀ i < Y.len, ∀ y, f i y = y) :
    Y.rowMap f = Y := by
  rw [Snap.rowMap_congr (g := fun _ y => y) h, Snap.rowMap_id]

/-! ### Picking rows -/

theorem Snap.len_pick [Zero K] (ix : List Nat) (Y : Snap K) : (Y.pick ix).len = ix.length := by
  cases Y <;> simp [Snap.pick, Snap.len]

theorem Snap.pick_rowMap [Zero K] (f : Nat → K → K) {Y : Snap K} {ix : List Nat}
    (h : ∀ i ∈ ix, i < Y.len) :
    (Y.rowMap f).pick ix = (Y.pick ix).rowMap fun j y => f (ix.getD j 0) y := by
  cases Y with
  | vec xs =>
    simp only [Snap.rowMap, Snap.pick, Snap.vec.injEq]
    apply ext_getElem (by simp)
    intro j h1 h2
    simp only [length_map] at h1
    have hl : ix[j] < xs.length := by simpa [Snap.len] using h _ (getElem_mem h1)
    simp [getD_eq_getElem?_getD, h1, hl]
  | mat k rows =>
    simp only [Snap.rowMap, Snap.pick, Snap.mat.injEq, true_and]
    apply ext_getElem (by simp)
    intro j h1 h2
    simp only [length_map] at h1
    have hl : ix[j] < rows.length := by simpa [Snap.len] using h _ (getElem_mem h1)
    simp [getD_eq_getElem?_getD, h1, hl]

/-! ### Parameters -/

/-- The parameter used for row `i`. -/
def Coef.get [Zero K] (c : Coef K) (i : Nat) : K :=
  match c with
  | .num a => a
  | .arr as => as.getD i 0

/-- The parameter is a number, or an array with `n` entries. -/
def Coef.Fits (c : Coef K) (n : Nat) : Prop :=
  match c with
  | .num _ => True
  | .arr as => as.length = n

theorem Snap.op_fits [Zero K] (f : K → K → K) {Y : Snap K} {c : Coef K} (h : c.Fits Y.len) :
    Y.op f c = .ok (Y.rowMap fun i y => f y (c.get i)) := by
  cases c with
  | num a => rfl
  | arr as =>
    simp only [Coef.Fits] at h
    simp [Snap.op, h, Coef.get]

theorem Snap.div_fits [Field K] [DecidableEq K] {Y : Snap K} {c : Coef K} (h : c.Fits Y.len)
    (h0 : (0 : K) ∉ c.entries) : Y.div c = .ok (Y.rowMap fun i y => y / c.get i) := by
  rw [Snap.div, if_neg h0, Snap.op_fits _ h]

theorem Coef.get_ne_zero [Zero K] {c : Coef K} {n i : Nat} (h : c.Fits n) (h0 : (0 : K) ∉ c.entries)
    (hi : i < n) : c.get i ≠ 0 := by
  cases c with
  | num a => simpa [Coef.get, Coef.entries, eq_comm] using h0
  | arr as =>
    simp only [Coef.Fits] at h
    intro h1
    apply h0
    have : i < as.length := by omega
    simp only [Coef.get, getD_eq_getElem?_getD, getElem?_eq_getElem this, Option.getD_some] at h1
    rw [← h1]
    exact getElem_mem this

/-! ### Locations -/

theorem pyIndex_lt {n : Nat} {i : Int} {j : Nat} (h : pyIndex n i = .ok j) : j < n := by
  unfold pyIndex at h
  split at h
  · split at h
    · simp only [Except.ok.injEq] at h; omega
    · cases h
  · split at h
    · simp only [Except.ok.injEq] at h; omega
    · cases h

theorem locate_eq {n : Nat} {l : Locs} {ix : List Nat} (h : locate n l = .ok ix) :
    ∃ is : List Int, (∀ p, p = is.length → checkLocs (some n) p l = .ok is) ∧
      is.mapM (pyIndex n) = .ok ix ∧ ix.length = is.length ∧ ∀ i ∈ ix, i < n := by
  have key : ∀ is : List Int, is.mapM (pyIndex n) = .ok ix →
      ix.length = is.length ∧ ∀ i ∈ ix, i < n := fun is hm =>
    ⟨mapM_ok_length hm, fun i hi => by
      obtain ⟨x, _, hx⟩ := mapM_ok_mem hm i hi
      exact pyIndex_lt hx⟩
  cases l with
  | idx is =>
    simp only [locate, bind, Except.bind] at h
    refine ⟨is, fun p hp => ?_, h, key is h⟩
    simp [checkLocs, bind, Except.bind, hp]
  | slice a b c =>
    simp only [locate, bind, Except.bind] at h
    split at h
    · cases h
    · rename_i is hs
      refine ⟨is, fun p hp => ?_, h, key is h⟩
      simp [checkLocs, bind, Except.bind, hs, hp]

theorem fancy_eq [Zero K] {n : Nat} {as : List K} {is : List Int} {ix : List Nat}
    (h : is.mapM (pyIndex n) = .ok ix) (hn : as.length = n) :
    fancy as is = .ok (ix.map fun i => as.getD i 0) := by
  subst hn
  simp [fancy, h, bind, Except.bind, pure, Except.pure]

/-- A slice selects valid positions. -/
theorem sliceIdx_range {n : Nat} {a b c : Option Int} {is : List Int} (h : sliceIdx n a b c = .ok is) :
    ∀ i ∈ is, 0 ≤ i ∧ i < n := by
  have clip : ∀ lo hi b : Int, lo ≤ hi → lo ≤ clipBound n lo hi b ∧ clipBound n lo hi b ≤ hi := by
    intro lo hi b hlh
    simp only [clipBound]
    generalize (if b < 0 then b + (n : Int) else b) = b'
    split
    · omega
    · split <;> omega
  simp only [sliceIdx] at h
  generalize hst : c.getD 1 = st at h
  split at h
  · cases h
  · split at h
    · rename_i hst1
      simp only [Except.ok.injEq] at h
      have ha : 0 ≤ (a.map (clipBound n 0 n)).getD 0 := by
        cases a with
        | none => simp
        | some a => exact (clip 0 n a (by omega)).1
      have hb : (b.map (clipBound n 0 n)).getD n ≤ n := by
        cases b with
        | none => simp
        | some b => exact (clip 0 n b (by omega)).2
      generalize (a.map (clipBound n 0 n)).getD 0 = A at h ha
      generalize (b.map (clipBound n 0 n)).getD n = B at h hb
      subst h
      intro i hi
      obtain ⟨j, hj, rfl⟩ := mem_map.1 hi
      rw [mem_range] at hj
      split at hj
      · rename_i hAB
        have hq : 0 ≤ (B - A - 1) / st := Int.ediv_nonneg (by omega) (by omega)
        have hj2 : (j : Int) ≤ (B - A - 1) / st := by omega
        have hm : (j : Int) * st ≤ B - A - 1 :=
          le_trans (mul_le_mul_of_nonneg_right hj2 (by omega)) (Int.ediv_mul_le _ (by omega))
        have hp : 0 ≤ (j : Int) * st := mul_nonneg (by omega) (by omega)
        constructor <;> omega
      · omega
    · rename_i hst0 hst1
      simp only [Except.ok.injEq] at h
      have ha : (a.map (clipBound n (-1) (n - 1))).getD (n - 1) ≤ n - 1 := by
        cases a with
        | none => simp
        | some a => exact (clip (-1) (n - 1) a (by omega)).2
      have hb : -1 ≤ (b.map (clipBound n (-1) (n - 1))).getD (-1) := by
        cases b with
        | none => simp
        | some b => exact (clip (-1) (n - 1) b (by omega)).1
      generalize (a.map (clipBound n (-1) (n - 1))).getD (n - 1) = A at h ha
      generalize (b.map (clipBound n (-1) (n - 1))).getD (-1) = B at h hb
      subst h
      intro i hi
      obtain ⟨j, hj, rfl⟩ := mem_map.1 hi
      rw [mem_range] at hj
      split at hj
      · rename_i hAB
        have hq : 0 ≤ (A - B - 1) / (-st) := Int.ediv_nonneg (by omega) (by omega)
        have hj2 : (j : Int) ≤ (A - B - 1) / (-st) := by omega
        have hm : (j : Int) * (-st) ≤ A - B - 1 :=
          le_trans (mul_le_mul_of_nonneg_right hj2 (by omega)) (Int.ediv_mul_le _ (by omega))
        have hp : 0 ≤ (j : Int) * (-st) := mul_nonneg (by omega) (by omega)
        have e : (j : Int) * st = -((j : Int) * (-st)) := by ring
        constructor <;> omega
      · omega

/-- Every slice with nonzero step can be used. -/
theorem locate_slice_ok (n : Nat) (a b c : Option Int) (hc : c ≠ some 0) :
    ∃ ix, locate n (.slice a b c) = .ok ix := by
  have h1 : ∃ is, sliceIdx n a b c = .ok is := by
    simp only [sliceIdx]
    have : c.getD 1 ≠ 0 := by
      cases c with
      | none => simp
      | some c => simpa using hc
    rw [if_neg this]
    split <;> exact ⟨_, rfl⟩
  obtain ⟨is, his⟩ := h1
  have hr := sliceIdx_range his
  have h2 : ∀ l : List Int, (∀ i ∈ l, 0 ≤ i ∧ i < (n : Int)) → ∃ ix, l.mapM (pyIndex n) = .ok ix := by
    intro l
    induction l with
    | nil => intro _; exact ⟨[], rfl⟩
    | cons i l ih =>
      intro h
      obtain ⟨ix, hix⟩ := ih fun j hj => h j (by simp [hj])
      have h0 := h i (by simp)
      refine ⟨i.toNat :: ix, ?_⟩
      simp [mapM_cons, hix, pyIndex, h0.1, h0.2, bind, Except.bind, pure, Except.pure]
  obtain ⟨ix, hix⟩ := h2 is hr
  exact ⟨ix, by simp [locate, his, bind, Except.bind, hix]⟩

/-! ### Row-wise affine transformers -/

variable {S : Type}

theorem onBuffer_ok {b : Bool} {f : Snap K → Except Err (Snap K)} {Y Z : Snap K} (h : f Y = .ok Z) :
    onBuffer b f Y = yields b Y Z := by
  simp only [onBuffer, h, yields]

theorem onBuffer_error {b : Bool} {f : Snap K → Except Err (Snap K)} {Y : Snap K} {e : Err}
    (h : f Y = .error e) : onBuffer b f Y = (Y, .error e) := by
  simp only [onBuffer, h]

theorem onBuffer_eq_ok {b : Bool} {f : Snap K → Except Err (Snap K)} {Y Y' Z : Snap K}
    (h : onBuffer b f Y = (Y', .ok Z)) : f Y = .ok Z := by
  unfold onBuffer at h
  split at h
  · rename_i hf
    simp only [Prod.mk.injEq, Except.ok.injEq] at h
    rw [hf, h.2]
  · simp only [Prod.mk.injEq, reduceCtorEq, and_false] at h

theorem onBuffer_eq_error {b : Bool} {f : Snap K → Except Err (Snap K)} {Y Y' : Snap K} {e : Err}
    (h : onBuffer b f Y = (Y', .error e)) : f Y = .error e := by
  unfold onBuffer at h
  split at h
  · simp only [Prod.mk.injEq, reduceCtorEq, and_false] at h
  · rename_i hf
    simp only [Prod.mk.injEq, Except.error.injEq] at h
    rw [hf, h.2]

/-- The transformer acts on row `i` as `q ↦ a i * q + c i`. -/
structure TfI.Affine [Field K] (I : TfI K S) (s : S) (n : Nat) (a c : Nat → K) : Prop where
  dim : I.dim s = some n
  nz : ∀ i < n, a i ≠ 0
  transform : ∀ b Y, Y.len = n → I.transform s b Y = yields b Y (Y.rowMap fun i y => a i * y + c i)
  ddts : ∀ b Y, Y.len = n → I.ddts s b Y = yields b Y (Y.rowMap fun i y => a i * y)
  inverse : ∀ b Y, Y.len = n → I.inverse s b Y none = yields b Y (Y.rowMap fun i y => (y - c i) / a i)
  reject : ∀ Y b, Y.len ≠ n → ∃ e, I.transform s b Y = (Y, .error e)
  rejectInv : ∀ Y b, Y.len ≠ n → ∃ e, I.inverse s b Y none = (Y, .error e)

/-- ... also at selected locations. -/
def TfI.AffineAt [Field K] (I : TfI K S) (s : S) (n : Nat) (a c : Nat → K) : Prop :=
  ∀ b Y l ix, locate n l = .ok ix → Y.len = ix.length → I.inverse s b Y (some l) =
    yields b Y (Y.rowMap fun j y => (y - c (ix.getD j 0)) / a (ix.getD j 0))

variable [Field K]

theorem TfI.Affine.invertible {I : TfI K S} {s : S} {n : Nat} {a c : Nat → K} (h : I.Affine s n a c) :
    I.Invertible s n where
  dim := h.dim
  forth Y k hY := by
    refine ⟨_, hY.rowMap _, fun b => h.transform b Y hY.len, fun b => ?_⟩
    rw [h.inverse b _ (by rw [Snap.len_rowMap, hY.len]), Snap.rowMap_rowMap]
    congr 1
    apply Snap.rowMap_eq_self
    intro i hi y
    have := h.nz i (hY.len ▸ hi)
    field_simp
    ring
  back Y k hY := by
    refine ⟨_, hY.rowMap _, fun b => h.inverse b Y hY.len, fun b => ?_⟩
    rw [h.transform b _ (by rw [Snap.len_rowMap, hY.len]), Snap.rowMap_rowMap]
    congr 1
    apply Snap.rowMap_eq_self
    intro i hi y
    have := h.nz i (hY.len ▸ hi)
    field_simp
    ring
  reject := h.reject
  rejectInv := h.rejectInv

omit [Field K] in
theorem yields_inj {b : Bool} {Y Z Z' : Snap K} (h : yields b Y Z = yields b Y Z') : Z = Z' := by
  simp only [yields, Prod.mk.injEq, Except.ok.injEq] at h
  exact h.2

theorem TfI.Affine.invertibleAt {I : TfI K S} {s : S} {n : Nat} {a c : Nat → K} (h : I.Affine s n a c)
    (h' : I.AffineAt s n a c) : I.InvertibleAt s n := by
  intro Y Z k l ix hY hZ hl ht b
  have hz := yields_inj (ht.symm.trans (h.transform false Y hY.len))
  obtain ⟨_, _, _, _, hix⟩ := locate_eq hl
  rw [h' b _ l ix hl (Snap.len_pick _ _)]
  congr 1
  rw [hz, Snap.pick_rowMap _ (by rw [hY.len]; exact hix), Snap.rowMap_rowMap, Snap.rowMap_eq_self]
  intro j hj y
  rw [Snap.len_pick] at hj
  have hm : ix.getD j 0 ∈ ix := by
    rw [getD_eq_getElem?_getD, getElem?_eq_getElem hj, Option.getD_some]
    exact getElem_mem hj
  have := h.nz _ (hix _ hm)
  field_simp
  ring

theorem Snap.axpy_rowMap (a c : Nat → K) (h : K) (Y D : Snap K) {n : Nat} {k : Option Nat}
    (hY : Y.Shaped n k) (hD : D.Shaped n k) :
    (Y.axpy h D).rowMap (fun i y => a i * y + c i) =
      (Y.rowMap fun i y => a i * y + c i).axpy h (D.rowMap fun i y => a i * y) := by
  cases Y with
  | vec xs =>
    cases D with
    | vec ds =>
      simp only [Snap.axpy, Snap.rowMap, Snap.vec.injEq]
      apply ext_getElem (by simp)
      intro i h1 h2
      simp only [getElem_mapIdx, getElem_zipWith]
      ring
    | mat l rows => exact absurd (hY.cols.trans hD.cols.symm) (by simp [Snap.cols])
  | mat k rows =>
    cases D with
    | vec ds => exact absurd (hY.cols.trans hD.cols.symm) (by simp [Snap.cols])
    | mat l ds =>
      simp only [Snap.axpy, Snap.rowMap, Snap.mat.injEq, true_and]
      apply ext_getElem (by simp)
      intro i h1 h2
      simp only [getElem_mapIdx, getElem_zipWith]
      apply ext_getElem (by simp)
      intro j h3 h4
      simp only [getElem_map, getElem_zipWith]
      ring

theorem Snap.Shaped.axpy {Y D : Snap K} {n : Nat} {k : Option Nat} (h : K)
    (hY : Y.Shaped n k) (hD : D.Shaped n k) : (Y.axpy h D).Shaped n k := by
  cases Y with
  | vec xs =>
    cases D with
    | vec ds =>
      have h1 := hY.len
      have h2 := hD.len
      simp only [Snap.len] at h1 h2
      exact ⟨trivial, by simp [Snap.axpy, Snap.len, h1, h2], hY.cols⟩
    | mat l rows => exact absurd (hY.cols.trans hD.cols.symm) (by simp [Snap.cols])
  | mat k' rows =>
    cases D with
    | vec ds => exact absurd (hY.cols.trans hD.cols.symm) (by simp [Snap.cols])
    | mat l ds =>
      have h1 := hY.len
      have h2 := hD.len
      have h3 : some k' = some l := hY.cols.trans hD.cols.symm
      simp only [Snap.len] at h1 h2
      simp only [Option.some.injEq] at h3
      refine ⟨?_, by simp [Snap.axpy, Snap.len, h1, h2], hY.cols⟩
      intro row hr
      obtain ⟨i, hi, rfl⟩ := mem_iff_getElem.1 hr
      simp only [length_zipWith] at hi
      have e1 := hY.wf _ (getElem_mem (show i < rows.length by omega))
      have e2 := hD.wf _ (getElem_mem (show i < ds.length by omega))
      simp [e1, e2, h3]

theorem TfI.Affine.differentiates {I : TfI K S} {s : S} {n : Nat} {a c : Nat → K}
    (h : I.Affine s n a c) : I.Differentiates s n := by
  intro Y D k t hY hD
  refine ⟨_, _, hY.rowMap _, hD.rowMap _, fun b => h.transform b Y hY.len,
    fun b => h.ddts b D hD.len, fun b => ?_⟩
  rw [h.transform b _ (hY.axpy t hD).len, Snap.axpy_rowMap a c t Y D hY hD]

end Opinf
