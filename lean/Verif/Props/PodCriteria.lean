import Verif.Props.PodHistory
import Mathlib.Algebra.Order.Ring.Rat

/-!
# C43: which criterion is used, and the singular values it is applied to

The documentation lists the criteria of a `PODBasis` in the order number of vectors, threshold for the singular
values, cumulative energy, residual energy and projection error. The first one given is used. The criteria are applied
to the singular values relative to the largest one.
-/

namespace Opinf

open List

variable {K : Type}

/-- The criterion that given arguments select. -/
inductive ChosenBy (a : CritArgs K) : Crit K → Prop
  | num (v : Int) (h1 : a.num = some v) : ChosenBy a (.num v)
  | svdval (v : K) (h1 : a.num = none) (h2 : a.svdval = some v) : ChosenBy a (.svdval v)
  | cumE (v : K) (h1 : a.num = none) (h2 : a.svdval = none) (h3 : a.cumE = some v) : ChosenBy a (.cumE v)
  | resE (v : K) (h1 : a.num = none) (h2 : a.svdval = none) (h3 : a.cumE = none) (h4 : a.resE = some v) :
      ChosenBy a (.resE v)
  | projErr (v : K) (h1 : a.num = none) (h2 : a.svdval = none) (h3 : a.cumE = none) (h4 : a.resE = none)
      (h5 : a.projErr = some v) : ChosenBy a (.projErr v)

/-- No criterion is given. -/
def CritArgs.Blank (a : CritArgs K) : Prop :=
  a.num = none ∧ a.svdval = none ∧ a.cumE = none ∧ a.resE = none ∧ a.projErr = none

theorem pick_chosen (a : CritArgs K) (c : Crit K) : a.pick = .ok c ↔ ChosenBy a c := by
  obtain ⟨n, s, e, r, p⟩ := a
  constructor
  · intro h
    cases n with
    | some v => cases h; exact .num v rfl
    | none => cases s with
      | some v => cases h; exact .svdval v rfl rfl
      | none => cases e with
        | some v => cases h; exact .cumE v rfl rfl rfl
        | none => cases r with
          | some v => cases h; exact .resE v rfl rfl rfl rfl
          | none => cases p with
            | some v => cases h; exact .projErr v rfl rfl rfl rfl rfl
            | none => cases h
  · intro h
    cases h with
    | num v h1 => cases h1; rfl
    | svdval v h1 h2 => cases h1; cases h2; rfl
    | cumE v h1 h2 h3 => cases h1; cases h2; cases h3; rfl
    | resE v h1 h2 h3 h4 => cases h1; cases h2; cases h3; cases h4; rfl
    | projErr v h1 h2 h3 h4 h5 => cases h1; cases h2; cases h3; cases h4; cases h5; rfl

theorem pick_blank (a : CritArgs K) (e : Err) : a.pick = .error e ↔ a.Blank ∧ e = .value := by
  obtain ⟨n, s, c, r, p⟩ := a
  constructor
  · intro h
    cases n with
    | some v => cases h
    | none => cases s with
      | some v => cases h
      | none => cases c with
        | some v => cases h
        | none => cases r with
          | some v => cases h
          | none => cases p with
            | some v => cases h
            | none => cases h; exact ⟨⟨rfl, rfl, rfl, rfl, rfl⟩, rfl⟩
  · rintro ⟨⟨h1, h2, h3, h4, h5⟩, rfl⟩
    cases h1; cases h2; cases h3; cases h4; cases h5
    rfl

variable [Field K] [LinearOrder K]

/-- C43: the constructor accepts exactly the arguments with at least one criterion, no limit on the number of vectors
or a positive one, and proper weights; the first criterion of the list is used. -/
theorem C43_constructor (a : CritArgs K) (mw : Option Int) (mos rand : Bool) (W : WArg K) (name : Option String) :
    ((∃ s, Pod.make a mw mos rand W name = .ok s) ↔
      ¬ a.Blank ∧ (∀ m ∈ mw, 0 < m) ∧ ∃ w, W.toWeights = .ok w) ∧
    (∀ s, Pod.make a mw mos rand W name = .ok s →
      ChosenBy a s.crit ∧ s.svd = none ∧ s.lin.entries = none ∧ W.toWeights = .ok s.lin.weights ∧
      (mw = none → s.maxWanted = none) ∧ ∀ m, mw = some m → ∃ k, s.maxWanted = some k ∧ (k : Int) = m) ∧
    (a.Blank → Pod.make a mw mos rand W name = .error .value) := by
  have hany : (mw.any fun m => decide (m ≤ 0)) = true ↔ ¬ ∀ m ∈ mw, 0 < m := by
    cases mw with
    | none => simp
    | some m => simp
  unfold Pod.make
  cases hp : a.pick with
  | error e =>
    obtain ⟨hb, rfl⟩ := (pick_blank a e).1 hp
    refine ⟨⟨?_, ?_⟩, ?_, fun _ => rfl⟩
    · rintro ⟨s, h⟩
      cases h
    · rintro ⟨h, -⟩
      exact absurd hb h
    · intro s h
      cases h
  | ok c =>
    have hnb : ¬ a.Blank := by
      intro hb
      rw [(pick_blank a .value).2 ⟨hb, rfl⟩] at hp
      cases hp
    simp only [bind, Except.bind]
    by_cases hm : (mw.any fun m => decide (m ≤ 0)) = true
    · rw [if_pos hm]
      refine ⟨⟨?_, ?_⟩, ?_, fun hb => absurd hb hnb⟩
      · rintro ⟨s, h⟩
        cases h
      · rintro ⟨-, h, -⟩
        exact absurd h (hany.1 hm)
      · intro s h
        cases h
    · rw [if_neg hm]
      have hpos : ∀ m ∈ mw, 0 < m := not_not.1 fun h => hm (hany.2 h)
      cases hw : W.toWeights with
      | error e =>
        refine ⟨⟨?_, ?_⟩, ?_, fun hb => absurd hb hnb⟩
        · rintro ⟨s, h⟩
          cases h
        · rintro ⟨-, -, w, h⟩
          cases h
        · intro s h
          cases h
      | ok w =>
        refine ⟨⟨fun _ => ⟨hnb, hpos, w, rfl⟩, fun _ => ⟨_, rfl⟩⟩, ?_, fun hb => absurd hb hnb⟩
        intro s h
        cases h
        refine ⟨(pick_chosen a c).1 hp, rfl, rfl, rfl, ?_, ?_⟩
        · rintro rfl
          rfl
        · rintro m rfl
          exact ⟨m.toNat, rfl, Int.toNat_of_nonneg (le_of_lt (hpos m rfl))⟩

/-- C43: `set_dimension` without any criterion raises and changes nothing; otherwise the first criterion of the list
is used from now on. -/
theorem C43_set_dimension_criterion (sqrt : K → K) (s : Pod K) (a : CritArgs K) :
    (a.Blank → s.setDimension sqrt a = (s, .error .value)) ∧
    (¬ a.Blank → ∃ c, ChosenBy a c ∧ (s.svd = none → s.setDimension sqrt a = ({ s with crit := c }, .ok ())) ∧
      ∀ d, s.svd = some d → (s.setDimension sqrt a).1.crit = c) := by
  constructor
  · intro hb
    simp only [Pod.setDimension, (pick_blank a .value).2 ⟨hb, rfl⟩]
  · intro hb
    cases hp : a.pick with
    | error e => exact absurd ((pick_blank a e).1 hp).1 hb
    | ok c =>
      refine ⟨c, (pick_chosen a c).1 hp, ?_, ?_⟩
      · intro hs
        simp only [Pod.setDimension, hp, hs, Option.isNone_none, if_true]
      · intro d hd
        simp only [Pod.setDimension, hp, hd, Option.isNone_some, Bool.false_eq_true, if_false, Pod.setFromCrit, Pod.setR]

variable [IsStrictOrderedRing K]

/-- The normalised singular values: the given ones in descending order, relative to the largest one. -/
theorem normalize_spec (vals w : List K) (h : normalizeVals vals = .ok w) :
    ∃ top ∈ vals, (∀ x ∈ vals, x ≤ top) ∧ top ≠ 0 ∧ w.Perm (vals.map (· / top)) ∧ (0 < top → w.Pairwise (· ≥ ·)) := by
  have hperm := perm_insertionSort (· ≥ ·) vals
  have hsort : (vals.insertionSort (· ≥ ·)).Pairwise (· ≥ ·) := pairwise_insertionSort (· ≥ ·) vals
  unfold normalizeVals at h
  generalize vals.insertionSort (· ≥ ·) = l at h hperm hsort
  cases l with
  | nil => cases h
  | cons a rest =>
    simp only at h
    split at h
    · cases h
    · rename_i ha
      cases h
      refine ⟨a, hperm.mem_iff.1 (by simp), ?_, ha, hperm.map _, ?_⟩
      · intro x hx
        rcases mem_cons.1 (hperm.mem_iff.2 hx) with rfl | hx
        · exact le_rfl
        · exact (pairwise_cons.1 hsort).1 x hx
      · intro hpos
        rw [pairwise_map]
        exact hsort.imp fun h => div_le_div_of_nonneg_right h hpos.le

/-- C43: after `fit`, the dimension is the one the criterion selects for the singular values relative to the largest
one, limited by the number of stored vectors. With a threshold for the singular values these are the singular values
that are at least the threshold times the largest one. -/
theorem C43_fit (ext : PodExt K) (s : Pod K) (Y : Snap K) (left : Cols K) (vals : List K) (right : Cols K)
    (h : s.decompose ext Y = .ok (left, vals, right)) (hn : ∀ x ∈ vals, 0 ≤ x) (hpos : ∃ x ∈ vals, x ≠ 0) :
    ∃ w top, top ∈ vals ∧ (∀ x ∈ vals, x ≤ top) ∧ 0 < top ∧ w.Perm (vals.map (· / top)) ∧ w.Pairwise (· ≥ ·) ∧
      (s.fit ext Y).1.svd = some ⟨left, w, some right⟩ ∧ (s.fit ext Y).1.crit = s.crit ∧
      (∀ m : Nat, s.crit.dim ext.sqrt w = m →
        (s.fit ext Y).1.lin.r = some ((min m left.cols.length : Nat) : Int)) ∧
      ∀ v, s.crit = .svdval v → (s.fit ext Y).1.lin.r =
        some ((min (vals.filter fun x => v * top ≤ x).length left.cols.length : Nat) : Int) := by
  obtain ⟨x, hx, hx0⟩ := hpos
  have hw : ∃ w, normalizeVals vals = .ok w := by
    have hperm := perm_insertionSort (· ≥ ·) vals
    have hsort : (vals.insertionSort (· ≥ ·)).Pairwise (· ≥ ·) := pairwise_insertionSort (· ≥ ·) vals
    unfold normalizeVals
    generalize vals.insertionSort (· ≥ ·) = l at hperm hsort
    cases l with
    | nil => exact absurd (hperm.mem_iff.2 hx) (by simp)
    | cons a rest =>
      have ha : a ≠ 0 := by
        have hxa : x ≤ a := by
          rcases mem_cons.1 (hperm.mem_iff.2 hx) with rfl | hx'
          · exact le_rfl
          · exact (pairwise_cons.1 hsort).1 x hx'
        exact (lt_of_lt_of_le (lt_of_le_of_ne (hn x hx) (Ne.symm hx0)) hxa).ne'
      exact ⟨_, if_neg ha⟩
  obtain ⟨w, hw⟩ := hw
  obtain ⟨top, t1, t2, t3, t4, t5⟩ := normalize_spec vals w hw
  have htop : 0 < top := lt_of_le_of_ne (hn top t1) (Ne.symm t3)
  have hdim : ∀ m : Nat, s.crit.dim ext.sqrt w = m →
      (s.fit ext Y).1.lin.r = some ((min m left.cols.length : Nat) : Int) := by
    intro m hm
    simp only [Pod.fit, h, Pod.storeSvd, hw, Pod.setFromCrit, hm]
    exact (C44_setter_value _ ⟨left, w, some right⟩ rfl m).1
  refine ⟨w, top, t1, t2, htop, t4, t5 htop, ?_, ?_, hdim, ?_⟩
  · simp only [Pod.fit, h, Pod.storeSvd, hw, Pod.setFromCrit, setR_svd]
  · simp only [Pod.fit, h, Pod.storeSvd, hw, Pod.setFromCrit, Pod.setR]
  · intro v hv
    apply hdim
    rw [hv]
    simp only [Crit.dim, countIf, Nat.cast_inj]
    rw [(t4.filter _).length_eq, filter_map, length_map]
    congr 1
    apply filter_congr
    intro y _
    simp only [Function.comp_apply, decide_eq_decide]
    exact le_div_iff₀ htop

/-- C43: a basis made from given singular vectors without any criterion keeps all the vectors; otherwise the first
criterion of the list is used. -/
theorem C43_from_svd (sqrt : K → K) (left : Cols K) (vals : List K) (right : Option (Cols K)) (a : CritArgs K)
    (mw : Option Int) (W : WArg K) (name : Option String) (s : Pod K)
    (h : Pod.fromSvd sqrt left vals right a mw W name = .ok s) :
    (a.Blank → s.crit = .num left.cols.length ∧ s.lin.r = some (left.cols.length : Int)) ∧
    (¬ a.Blank → ChosenBy a s.crit) ∧ ∃ w, normalizeVals vals = .ok w ∧ s.svd = some ⟨left, w, right⟩ := by
  have hprov : a.provided.isEmpty = true ↔ a.Blank := by
    rw [← and_iff_left (a := a.Blank) (b := Err.value = Err.value) rfl, ← pick_blank]
    unfold CritArgs.pick
    cases a.provided with
    | nil => simp
    | cons c cs => simp
  obtain ⟨a', ha'⟩ : ∃ a', a' = if a.provided.isEmpty then { a with num := some (left.cols.length : Int) } else a :=
    ⟨_, rfl⟩
  simp only [Pod.fromSvd, bind, Except.bind, ← ha'] at h
  cases hm : Pod.make a' mw false false W name with
  | error e => simp [hm] at h
  | ok s0 =>
    simp only [hm] at h
    obtain ⟨h1, -⟩ := (C43_constructor a' mw false false W name).2.1 s0 hm
    simp only [Pod.storeSvd] at h
    cases hw : normalizeVals vals with
    | error e => simp [hw] at h
    | ok w =>
      simp only [hw, Pod.setFromCrit] at h
      split at h
      · cases h
      · simp only [pure, Except.pure, Except.ok.injEq] at h
        subst h
        have hc : (Pod.setR { s0 with svd := some ⟨left, w, right⟩ } (s0.crit.dim sqrt w)).1.crit = s0.crit := by
          simp only [Pod.setR]
        refine ⟨?_, ?_, w, rfl, setR_svd _ _⟩
        · intro hb
          rw [if_pos (hprov.2 hb)] at ha'
          have hcr : s0.crit = .num left.cols.length := by
            rw [ha'] at h1
            cases hk : s0.crit with
            | num v => rw [hk] at h1; cases h1 with | num _ h => simp only [Option.some.injEq] at h; rw [h]
            | svdval v => rw [hk] at h1; cases h1 with | svdval _ h => cases h
            | cumE v => rw [hk] at h1; cases h1 with | cumE _ h => cases h
            | resE v => rw [hk] at h1; cases h1 with | resE _ h => cases h
            | projErr v => rw [hk] at h1; cases h1 with | projErr _ h => cases h
          refine ⟨hc.trans hcr, ?_⟩
          have := (C44_setter_value { s0 with svd := some ⟨left, w, right⟩ } ⟨left, w, right⟩ rfl left.cols.length).1
          rw [min_self] at this
          rw [hcr]
          exact this
        · intro hb
          rw [if_neg (fun h => hb (hprov.1 h))] at ha'
          rw [hc, ← ha']
          exact h1

/-! ### Examples -/

example : ∃ s, Pod.fromSvd (K := ℚ) id ⟨2, [[1, 0], [0, 1]]⟩ [1, 2] none ⟨none, none, none, none, none⟩ none .none none =
    .ok s ∧ s.lin.r = some 2 ∧ s.svd.map SvdData.vals = some [1, 1/2] :=
  ⟨_, rfl, by decide +kernel, by decide +kernel⟩

example : ChosenBy (K := ℚ) ⟨none, some (1/2), some (9/10), none, none⟩ (.svdval (1/2)) ∧
    ¬ (⟨none, some (1/2), some (9/10), none, none⟩ : CritArgs ℚ).Blank ∧
    (⟨none, none, none, none, none⟩ : CritArgs ℚ).Blank :=
  ⟨.svdval _ rfl rfl, (fun h => by cases h.2.1), rfl, rfl, rfl, rfl, rfl⟩

example : ∃ s : Pod ℚ, Pod.make ⟨none, some (1/2), none, none, none⟩ (some 3) false false .none none = .ok s ∧
    s.decompose exPodExt (.mat 3 [[3, 0, 0], [0, 2, 0], [0, 0, 1]]) =
      .ok (⟨3, [[1, 0, 0], [0, 1, 0], [0, 0, 1]]⟩, [3, 2, 1], ⟨3, [[1, 0, 0], [0, 1, 0], [0, 0, 1]]⟩) ∧
    (s.fit exPodExt (.mat 3 [[3, 0, 0], [0, 2, 0], [0, 0, 1]])).1.lin.r = some 2 :=
  ⟨_, rfl, by decide +kernel, by decide +kernel⟩

end Opinf
