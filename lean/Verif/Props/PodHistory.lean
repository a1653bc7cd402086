import Verif.Props.Pod

/-!
# C44: POD entries are the leading left singular vectors after every history of calls

A history is a list of calls of `fit`, `set_dimension` and assignments to `reduced_state_dimension`; calls that raise
are caught and the history goes on. The numbers of vectors asked for must not be negative: a negative dimension is
taken as a Python slice bound by the code, separately for the vectors and the singular values
(`C44_negative_dimension_witness`).
-/

namespace Opinf

open List

variable {K : Type} [Field K] [LinearOrder K]

/-- The public calls that change a POD basis. -/
inductive PodCall (K : Type)
  | fit (Y : Snap K)
  | setDimension (a : CritArgs K)
  | setR (r : Int)

/-- One call. -/
def PodCall.run (ext : PodExt K) (s : Pod K) : PodCall K → Pod K
  | .fit Y => (s.fit ext Y).1
  | .setDimension a => (s.setDimension ext.sqrt a).1
  | .setR r => (s.setR r).1

/-- No negative number of vectors is asked for. -/
def PodCall.sane : PodCall K → Prop
  | .fit _ => True
  | .setDimension a => ∀ v ∈ a.num, 0 ≤ v
  | .setR r => 0 ≤ r

/-- The criterion does not ask for a negative number of vectors. -/
def Crit.sane : Crit K → Prop
  | .num v => 0 ≤ v
  | _ => True

/-- What a POD basis reports about itself: nothing without singular vectors, otherwise the first
`reduced_state_dimension` stored vectors and their energies. -/
structure Pod.Consistent (s : Pod K) : Prop where
  untrained : s.svd = none → s.lin.entries = none ∧ s.cum = none ∧ s.res = none
  trained : ∀ d, s.svd = some d → ∃ r : Nat, r ≤ d.left.cols.length ∧ s.lin.r = some (r : Int) ∧
    s.lin.n = some d.left.n ∧ s.lin.entries = some ⟨d.left.n, d.left.cols.take r⟩ ∧
    s.cum = some (captured d.vals r) ∧ s.res = some (1 - captured d.vals r)

theorem Crit.dim_nonneg (sqrt : K → K) (c : Crit K) (hc : c.sane) (vals : List K) : 0 ≤ c.dim sqrt vals := by
  cases c <;> simp only [Crit.dim]
  · exact hc
  all_goals omega

theorem setR_untrained (s : Pod K) (h : s.svd = none) (r : Int) :
    s.setR r = ({ s with crit := .num r, lin := { s.lin with r := some r } }, .ok ()) := by
  simp [Pod.setR, h]

/-- The dimension that results from asking for `r` vectors of `k`. -/
def effective (k : Nat) (r : Int) : Nat := if r < 0 then (r + k).toNat else min r.toNat k

theorem setR_trained (s : Pod K) (d : SvdData K) (h : s.svd = some d) (r : Int)
    (hr : 0 ≤ r ∨ d.left.cols.length = d.vals.length) :
    (s.setR r).1 = { s with
      lin := ⟨s.lin.name, some d.left.n, some (effective d.left.cols.length r : Int),
        some ⟨d.left.n, d.left.cols.take (effective d.left.cols.length r)⟩, s.lin.weights⟩,
      cum := some (captured d.vals (effective d.left.cols.length r)),
      res := some (1 - captured d.vals (effective d.left.cols.length r)) } := by
  simp only [Pod.setR, h, LinB.init, Cols.upTo, takeInt, captured_eq]
  by_cases h0 : r < 0
  · have hk : ¬ ((d.left.cols.length : Int) < r) := by omega
    have hlen : d.left.cols.length = d.vals.length := by rcases hr with h | h; omega; exact h
    have he : effective d.left.cols.length r = (r + (d.left.cols.length : Int)).toNat := by simp [effective, h0]
    have hle : (r + (d.left.cols.length : Int)).toNat ≤ d.left.cols.length := by omega
    simp only [if_neg hk, if_pos h0, ← hlen, he, length_take, Nat.min_eq_left hle]
  · have he : effective d.left.cols.length r = min r.toNat d.left.cols.length := by simp [effective, h0]
    rw [he]
    by_cases hk : (d.left.cols.length : Int) < r
    · have hm : min r.toNat d.left.cols.length = d.left.cols.length := by omega
      have hneg : ¬ ((d.left.cols.length : Int) < 0) := by omega
      simp only [if_pos hk, if_neg hneg, hm, Int.toNat_natCast, length_take, Nat.min_self]
    · have hm : min r.toNat d.left.cols.length = r.toNat := by omega
      have hle : r.toNat ≤ d.left.cols.length := by omega
      simp only [if_neg hk, if_neg h0, hm, length_take, Nat.min_eq_left hle]

theorem effective_le (k : Nat) (r : Int) : effective k r ≤ k := by
  unfold effective
  split <;> omega

theorem setR_consistent (s : Pod K) (hs : s.Consistent ∨ s.svd.isSome) (r : Int)
    (hr : 0 ≤ r ∨ ∀ d, s.svd = some d → d.left.cols.length = d.vals.length) : (s.setR r).1.Consistent := by
  cases hd : s.svd with
  | none =>
    rw [setR_untrained s hd]
    have hs : s.Consistent := by
      rcases hs with h | h
      · exact h
      · rw [hd] at h; cases h
    exact ⟨fun _ => hs.untrained hd, fun d h => by rw [hd] at h; cases h⟩
  | some d =>
    rw [setR_trained s d hd r (hr.imp id fun h => h d hd)]
    refine ⟨fun h => (by rw [hd] at h; cases h), fun d' h => ?_⟩
    have : d = d' := by
      simp only [hd, Option.some.injEq] at h
      exact h
    subst this
    exact ⟨_, effective_le _ _, rfl, rfl, rfl, rfl, rfl⟩

theorem setR_svd (s : Pod K) (r : Int) : (s.setR r).1.svd = s.svd := by
  unfold Pod.setR
  cases s.svd <;> rfl

theorem setR_crit (s : Pod K) (r : Int) (hr : 0 ≤ r) (hc : s.crit.sane) : (s.setR r).1.crit.sane := by
  unfold Pod.setR
  cases s.svd
  · exact hr
  · exact hc

theorem pick_sane (a : CritArgs K) (ha : ∀ v ∈ a.num, 0 ≤ v) (c : Crit K) (h : a.pick = .ok c) : c.sane := by
  obtain ⟨n, s, e, r, p⟩ := a
  cases n with
  | some v =>
    simp only [CritArgs.pick, CritArgs.provided, Option.map_some, filterMap_cons, id] at h
    simp only [Except.ok.injEq] at h
    subst h
    exact ha v rfl
  | none =>
    cases s <;> cases e <;> cases r <;> cases p <;>
      simp [CritArgs.pick, CritArgs.provided] at h <;> subst h <;> trivial

theorem storeSvd_consistent (sqrt : K → K) (s : Pod K) (hs : s.Consistent) (hc : s.crit.sane) (left : Cols K)
    (vals : List K) (right : Option (Cols K)) :
    (s.storeSvd sqrt left vals right).1.Consistent ∧ (s.storeSvd sqrt left vals right).1.crit.sane := by
  unfold Pod.storeSvd
  cases normalizeVals vals with
  | error e => exact ⟨hs, hc⟩
  | ok w =>
    simp only [Pod.setFromCrit]
    exact ⟨setR_consistent _ (Or.inr rfl) _ (Or.inl (Crit.dim_nonneg _ _ hc _)),
      setR_crit _ _ (Crit.dim_nonneg _ _ hc _) hc⟩

theorem call_consistent (ext : PodExt K) (s : Pod K) (hs : s.Consistent) (hc : s.crit.sane) (o : PodCall K)
    (ho : o.sane) : (o.run ext s).Consistent ∧ (o.run ext s).crit.sane := by
  cases o with
  | setR r => exact ⟨setR_consistent s (Or.inl hs) r (Or.inl ho), setR_crit s r ho hc⟩
  | setDimension a =>
    simp only [PodCall.run, Pod.setDimension]
    cases ha : a.pick with
    | error e => exact ⟨hs, hc⟩
    | ok c =>
      have hcs := pick_sane a ho c ha
      cases hd : s.svd with
      | none =>
        simp only [Option.isNone_none, if_true]
        exact ⟨⟨fun _ => hs.untrained hd, fun d h => by cases h⟩, hcs⟩
      | some d =>
        simp only [Option.isNone_some, Bool.false_eq_true, if_false, Pod.setFromCrit]
        exact ⟨setR_consistent _ (Or.inr rfl) _ (Or.inl (Crit.dim_nonneg _ _ hcs _)),
          setR_crit _ _ (Crit.dim_nonneg _ _ hcs _) hcs⟩
  | fit Y =>
    simp only [PodCall.run, Pod.fit]
    cases s.decompose ext Y with
    | error e => exact ⟨hs, hc⟩
    | ok t =>
      obtain ⟨V, vals, W⟩ := t
      apply storeSvd_consistent
      · exact ⟨hs.untrained, hs.trained⟩
      · exact hc

/-- C44: after construction and every history of calls, a POD basis is consistent: `entries` are the first
`reduced_state_dimension` stored left vectors, of which there are enough, and the energies are theirs. -/
theorem C44_history (ext : PodExt K) (a : CritArgs K) (ha : ∀ v ∈ a.num, 0 ≤ v) (maxWanted : Option Int)
    (mos randomized : Bool) (W : WArg K) (name : Option String) (s : Pod K)
    (hs : Pod.make a maxWanted mos randomized W name = .ok s) (ops : List (PodCall K)) (ho : ∀ o ∈ ops, o.sane) :
    (ops.foldl (PodCall.run ext) s).Consistent := by
  have h0 : s.Consistent ∧ s.crit.sane := by
    unfold Pod.make at hs
    cases hp : a.pick with
    | error e => simp [hp, bind, Except.bind] at hs
    | ok c =>
      simp only [hp, bind, Except.bind] at hs
      split at hs
      · cases hs
      · cases hw : W.toWeights with
        | error e => simp [hw] at hs
        | ok W' =>
          simp only [hw, pure, Except.pure, Except.ok.injEq] at hs
          subst hs
          exact ⟨⟨fun _ => ⟨rfl, rfl, rfl⟩, fun d h => by cases h⟩, pick_sane a ha c hp⟩
  suffices ∀ ops : List (PodCall K), (∀ o ∈ ops, o.sane) → ∀ s : Pod K, s.Consistent ∧ s.crit.sane →
      (ops.foldl (PodCall.run ext) s).Consistent from this ops ho s h0
  intro ops
  induction ops with
  | nil => exact fun _ s h => h.1
  | cons o ops ih =>
    intro ho s h
    exact ih (fun o h => ho o (by simp [h])) _ (call_consistent ext s h.1 h.2 o (ho o (by simp)))

/-- C44: one call at a time, from any consistent state. -/
theorem C44_call (ext : PodExt K) (s : Pod K) (hs : s.Consistent) (hc : s.crit.sane) (o : PodCall K) (ho : o.sane) :
    (o.run ext s).Consistent ∧ (o.run ext s).crit.sane := call_consistent ext s hs hc o ho

/-- C44: if all vectors are stored, negative dimensions are harmless too. -/
theorem C44_setter_all_stored (s : Pod K) (hs : s.Consistent) (r : Int)
    (h : ∀ d, s.svd = some d → d.left.cols.length = d.vals.length) : (s.setR r).1.Consistent :=
  setR_consistent s (Or.inl hs) r (Or.inr h)

/-- C44: the setter gives exactly the requested dimension, limited by the number of stored vectors. -/
theorem C44_setter_value (s : Pod K) (d : SvdData K) (hd : s.svd = some d) (r : Nat) :
    (s.setR r).1.lin.r = some ((min r d.left.cols.length : Nat) : Int) ∧ (s.setR r).1.crit = s.crit := by
  rw [setR_trained s d hd r (Or.inl (by omega))]
  refine ⟨?_, rfl⟩
  simp [effective]

/-- C44: a dimension set before `fit` is used by `fit`. -/
theorem C44_setter_before_fit (ext : PodExt K) (s : Pod K) (hs : s.svd = none) (r : Nat) (Y : Snap K)
    (left : Cols K) (vals : List K) (right : Cols K)
    (hY : (s.setR r).1.decompose ext Y = .ok (left, vals, right)) (w : List K) (hw : normalizeVals vals = .ok w) :
    ((s.setR r).1.fit ext Y).1.lin.r = some ((min r left.cols.length : Nat) : Int) ∧
    ((s.setR r).1.fit ext Y).1.svd = some ⟨left, w, some right⟩ := by
  rw [setR_untrained s hs] at hY ⊢
  simp only [Pod.fit, hY, Pod.storeSvd, hw, Pod.setFromCrit, Crit.dim]
  constructor
  · exact (C44_setter_value _ ⟨left, w, some right⟩ rfl r).1
  · rw [setR_svd]

/-- C44: `fit` forgets what happened before; only the hyperparameters count. -/
theorem C44_fit_forgets (ext : PodExt K) (s t : Pod K) (Y : Snap K) (hc : s.crit = t.crit)
    (hm : s.maxWanted = t.maxWanted) (h1 : s.mos = t.mos) (h2 : s.randomized = t.randomized)
    (hW : s.lin.weights = t.lin.weights) (hn : s.lin.name = t.lin.name) :
    (s.fit ext Y).2 = (t.fit ext Y).2 ∧ ((s.fit ext Y).1 = (t.fit ext Y).1 ∨
      ((s.fit ext Y).1 = s ∧ (t.fit ext Y).1 = t) ∨ ∃ e, (s.fit ext Y).2 = .error e) := by
  obtain ⟨⟨n1, d1, r1, e1, w1⟩, c1, m1, a1, b1, z1, v1, x1, y1⟩ := s
  obtain ⟨⟨n2, d2, r2, e2, w2⟩, c2, m2, a2, b2, z2, v2, x2, y2⟩ := t
  simp only at hc hm h1 h2 hW hn
  subst hc hm h1 h2 hW hn
  have hdec : ∀ Y, Pod.decompose ext ⟨⟨n1, d1, r1, e1, w1⟩, c1, m1, a1, b1, z1, v1, x1, y1⟩ Y =
      Pod.decompose ext ⟨⟨n1, d2, r2, e2, w1⟩, c1, m1, a1, b1, z2, v2, x2, y2⟩ Y := by
    intro Y
    cases Y <;> rfl
  simp only [Pod.fit, hdec]
  cases Pod.decompose ext ⟨⟨n1, d2, r2, e2, w1⟩, c1, m1, a1, b1, z2, v2, x2, y2⟩ Y with
  | error e => exact ⟨rfl, Or.inr (Or.inl ⟨rfl, rfl⟩)⟩
  | ok q =>
    obtain ⟨V, vals, W⟩ := q
    simp only [Pod.storeSvd]
    cases normalizeVals vals with
    | error e => exact ⟨rfl, Or.inr (Or.inr ⟨e, rfl⟩)⟩
    | ok w => exact ⟨rfl, Or.inl rfl⟩

/-- C44: `max_vectors` limits the number of stored vectors, and so does the size of the training data. -/
theorem C44_max_vectors (ext : PodExt K) (s : Pod K) (k : Nat) (rows : List (List K)) (left : Cols K) (vals : List K)
    (right : Cols K) (h : s.decompose ext (.mat k rows) = .ok (left, vals, right)) :
    left.cols.length ≤ min rows.length k ∧ ∀ m, s.maxWanted = some m → left.cols.length ≤ m := by
  simp only [Pod.decompose, bind, Except.bind] at h
  split at h
  · cases h
  · split at h
    · cases h
    · split at h
      · cases h
      · simp only [pure, Except.pure, Except.ok.injEq, Prod.mk.injEq] at h
        rw [← h.1]
        simp only [length_take, Pod.keep]
        refine ⟨?_, fun m hm => ?_⟩
        · split <;> omega
        · rw [hm]
          dsimp only
          omega

/-! ### The negation -/

/-- A trained basis with two stored vectors of three singular values. -/
def exPod : Pod ℚ :=
  ⟨⟨none, some 3, some 2, some ⟨3, [[1, 0, 0], [0, 1, 0]]⟩, none⟩, .num 2, some 2, false, false, false,
    some ⟨⟨3, [[1, 0, 0], [0, 1, 0]]⟩, [1, 1, 1], some ⟨3, [[1, 0, 0], [0, 1, 0]]⟩⟩, some (2/3), some (1/3)⟩

theorem exPod_consistent : exPod.Consistent :=
  ⟨fun h => (by cases h), fun d h => by
    simp only [exPod, Option.some.injEq] at h
    subst h
    refine ⟨2, le_rfl, rfl, rfl, rfl, ?_, ?_⟩ <;> simp only [exPod] <;> norm_num [captured]⟩

/-- C44, the negation: after `reduced_state_dimension = -1` one vector is used, but the energy of two is reported. -/
theorem C44_negative_dimension_witness :
    exPod.Consistent ∧ ¬ (exPod.setR (-1)).1.Consistent := by
  refine ⟨exPod_consistent, fun h => ?_⟩
  obtain ⟨r, _, h1, _, _, h2, _⟩ := h.trained ⟨⟨3, [[1, 0, 0], [0, 1, 0]]⟩, [1, 1, 1],
    some ⟨3, [[1, 0, 0], [0, 1, 0]]⟩⟩ rfl
  have e1 : (exPod.setR (-1)).1.lin.r = some 1 := by decide +kernel
  have e2 : (exPod.setR (-1)).1.cum = some (2/3) := by decide +kernel
  rw [e1] at h1
  rw [e2] at h2
  simp only [Option.some.injEq] at h1 h2
  have : r = 1 := by omega
  subst this
  norm_num [captured] at h2

/-! ### Examples -/

/-- Libraries that know the decomposition of one matrix. -/
def exPodExt : PodExt ℚ where
  sqrt := id
  sqrtm := id
  choSolve _ v := v
  engine _ Y := if Y = .mat 3 [[3, 0, 0], [0, 2, 0], [0, 0, 1]]
    then .ok (⟨3, [[1, 0, 0], [0, 1, 0], [0, 0, 1]]⟩, [3, 2, 1], ⟨3, [[1, 0, 0], [0, 1, 0], [0, 0, 1]]⟩)
    else .error .linalg

example : ∃ s, Pod.make (K := ℚ) ⟨none, none, some (9/10), none, none⟩ none false false .none none = .ok s ∧
    ([PodCall.setR 7, .fit (.vec [1]), .fit (.mat 3 [[3, 0, 0], [0, 2, 0], [0, 0, 1]]),
      .setDimension ⟨none, none, none, some (1/10), none⟩, .setR 1].foldl (PodCall.run exPodExt) s).lin.entries =
      some ⟨3, [[1, 0, 0]]⟩ := by
  refine ⟨_, rfl, by decide +kernel⟩

example : PodCall.sane (K := ℚ) (.setR 7) ∧ exPod.crit.sane ∧
    (exPod.setR 1).1.lin.entries = some ⟨3, [[1, 0, 0]]⟩ := by
  refine ⟨?_, ?_, by decide +kernel⟩
  · show (0 : Int) ≤ 7
    decide
  · show (0 : Int) ≤ 2
    decide

end Opinf
