import Verif.Props.PodHistory
import Verif.Props.Persist

/-!
# C45: saving and loading linear and POD bases

`load(save(b))` of a POD basis applies the *criterion* again. It gives the same basis if the current dimension is the
one the criterion selects, which is so after `fit` and `set_dimension`, but not after an assignment to
`reduced_state_dimension` of a trained basis: `C45_setter_lost_witness`. With the criterion `num_vectors`,
`load(max_vectors=m)` can *increase* the dimension: `C45_max_vectors_increases_witness`.
-/

namespace Opinf

open List

variable {K : Type}

theorem toCols_toMat [Zero K] (V : Cols K) (h : V.WF) : V.toMat.toCols = V := by
  obtain ⟨n, cols⟩ := V
  simp only [Cols.toMat, Mat.toCols, Cols.mk.injEq, true_and]
  apply ext_getElem (by simp [transpose])
  intro i h1 h2
  have hl : (cols[i]).length = n := h _ (getElem_mem h2)
  apply ext_getElem (by simp [transpose, hl])
  intro j h3 h4
  have hj : j < n := by omega
  simp [transpose, getD_eq_getElem?_getD, h2, hj, h4]

/-- The weights as an argument of the constructor. -/
def weightArg : Option (Weights K) → WArg K
  | none => .none
  | some (.diag w) => .one w
  | some (.full W) => .two W

theorem weightArg_toWeights (W : Option (Weights K)) : (weightArg W).toWeights = .ok W := by
  rcases W with _ | ⟨w⟩ | ⟨W⟩ <;> rfl

/-! ### Linear bases -/

/-- A linear basis as the constructor leaves it. -/
structure LinB.Proper [Semiring K] (b : LinB K) (V : Cols K) : Prop extends b.Has V where
  dims : b.n = some V.n ∧ b.r = some (V.cols.length : Int)

/-- C45: a saved linear basis loads back, entries, weights, dimensions and name alike. -/
theorem C45_linear_save_load [CommSemiring K] [DecidableEq K] (b : LinB K) (V : Cols K) (hb : b.Proper V)
    (hn : b.name ≠ some "") : b.save.2 = .ok () ∧ LinB.load b.save.1 = .ok b := by
  obtain ⟨name, n, r, entries, W⟩ := b
  obtain ⟨⟨he, hV, hf⟩, h1, h2⟩ := hb
  simp only at he hf h1 h2 hn
  subst he h1 h2
  refine ⟨rfl, ?_⟩
  have hmat : H5.mat (LinB.save ⟨name, some V.n, some V.cols.length, some V, W⟩).1 "entries" = .ok V.toMat := by
    rcases name with _ | s
    · simp [LinB.save, H5.mat, H5.get?, H5.vals, nameVals, lookup]
    · have : s ≠ "" := fun h => hn (by rw [h])
      simp [LinB.save, H5.mat, H5.get?, H5.vals, nameVals, lookup, this]
  have hW : readWeights (LinB.save ⟨name, some V.n, some V.cols.length, some V, W⟩).1 = .ok (weightArg W) := by
    rcases name with _ | s
    · rcases W with _ | ⟨w⟩ | ⟨W⟩ <;>
        simp [LinB.save, readWeights, H5.get?, H5.vals, nameVals, lookup, weightVals, weightArg]
    · have : s ≠ "" := fun h => hn (by rw [h])
      rcases W with _ | ⟨w⟩ | ⟨W⟩ <;>
        simp [LinB.save, readWeights, H5.get?, H5.vals, nameVals, lookup, weightVals, weightArg, this]
  have hname : readNameOpt (LinB.save ⟨name, some V.n, some V.cols.length, some V, W⟩).1 = name := by
    rcases name with _ | s
    · rcases W with _ | ⟨w⟩ | ⟨W⟩ <;>
        simp [LinB.save, readNameOpt, H5.get?, H5.vals, nameVals, lookup, weightVals]
    · have : s ≠ "" := fun h => hn (by rw [h])
      simp [LinB.save, readNameOpt, H5.get?, H5.vals, nameVals, lookup, this]
  simp only [LinB.load, bind, Except.bind, hmat, hW, hname, LinB.make, weightArg_toWeights, LinB.init,
    toCols_toMat V hV, if_true, orthWarn, basisGram_ok hV hf, Except.map, pure, Except.pure, asLoadError]

/-- C45: a linear basis without entries cannot be saved. -/
theorem C45_linear_untrained [Zero K] (b : LinB K) (h : b.entries = none) : b.save.2 = .error .type := by
  simp [LinB.save, h]

/-! ### POD bases -/

variable [Field K] [LinearOrder K]

/-- Singular values as `_store_svd` leaves them are not changed by storing them again. -/
theorem C45_normalized [IsStrictOrderedRing K] (vals w : List K) (hv : ∀ v ∈ vals, 0 ≤ v)
    (h : normalizeVals vals = .ok w) : normalizeVals w = .ok w := by
  unfold normalizeVals at h
  have hsort := pairwise_insertionSort (fun a b : K => a ≥ b) vals
  have hmem : ∀ v ∈ vals.insertionSort (fun a b : K => a ≥ b), 0 ≤ v := fun v h => hv v ((mem_insertionSort _).1 h)
  generalize vals.insertionSort (fun a b : K => a ≥ b) = l at h hsort hmem
  cases l with
  | nil => cases h
  | cons s rest =>
    simp only at h
    split at h
    · cases h
    · rename_i hs
      simp only [Except.ok.injEq] at h
      have hpos : 0 < s := lt_of_le_of_ne (hmem s (by simp)) (Ne.symm hs)
      have hw : w.Pairwise (fun a b : K => a ≥ b) := by
        rw [← h, pairwise_map]
        exact hsort.imp fun {a b} hab => div_le_div_of_nonneg_right hab (le_of_lt hpos)
      have hw' : w.insertionSort (fun a b : K => a ≥ b) = w := hw.insertionSort_eq
      unfold normalizeVals
      rw [hw', ← h]
      simp [div_self hs]

/-- The criterion after loading with a limit on the number of vectors. -/
def Crit.limited (c : Crit K) (mv : Option Nat) (k : Nat) : Crit K :=
  match c, mv with
  | .num _, some m => .num ((min m k : Nat) : Int)
  | c, _ => c

/-- The basis that `load` returns for a trained basis: the criterion is applied to the vectors that are read. -/
def Pod.reloaded (sqrt : K → K) (s : Pod K) (d : SvdData K) (R : Cols K) (mv : Option Nat) : Pod K :=
  ((⟨⟨s.lin.name, none, none, none, s.lin.weights⟩, s.crit.limited mv d.left.cols.length, s.maxWanted, false, false,
    false, some ⟨⟨d.left.n, d.left.cols.take (readVectors mv d.left.cols.length)⟩, d.vals,
      some ⟨R.n, R.cols.take (readVectors mv d.left.cols.length)⟩⟩, none, none⟩ : Pod K).setR
    ((s.crit.limited mv d.left.cols.length).dim sqrt d.vals)).1

theorem critOf_pick (toInt : K → Int) (ht : ∀ z : Int, toInt (z : K) = z) (c : Crit K) (mv : Option Nat) (k : Nat) :
    ∃ a, critOf toInt c.label c.val = .ok a ∧
      (if mv.isSome && a.num.isSome then { a with num := some ((readVectors mv k : Nat) : Int) } else a).pick
        = .ok (c.limited mv k) := by
  cases c <;> cases mv <;>
    simp [critOf, Crit.label, Crit.val, ht, CritArgs.pick, CritArgs.provided, Crit.limited, readVectors]

theorem pick_provided (a : CritArgs K) (c : Crit K) (h : a.pick = .ok c) : a.provided.isEmpty = false := by
  unfold CritArgs.pick at h
  cases hp : a.provided with
  | nil => rw [hp] at h; cases h
  | cons x xs => rfl

/-- The limit as an argument of the constructor. -/
def limitInt : Option Nat → Option Int
  | none => none
  | some m => some (m : Int)

/-- The trained bases the theorems are about: proper arrays of vectors, normalized singular values, right vectors
available, a positive limit if any, and weights of the right size. -/
structure Pod.Storable (s : Pod K) (d : SvdData K) (R : Cols K) : Prop where
  svd : s.svd = some d
  right : d.right = some R
  wfLeft : d.left.WF
  wfRight : R.WF
  vals : normalizeVals d.vals = .ok d.vals
  limit : ∀ m ∈ s.maxWanted, 1 ≤ m
  fit : weightsFit s.lin.weights d.left.n
  name : s.lin.name ≠ some ""

theorem pod_reads (s : Pod K) (d : SvdData K) (R : Cols K) (hs : s.Storable d R) :
    s.save.2 = .ok () ∧ H5.str s.save.1 "meta.criterion_type" = .ok s.crit.label ∧
    H5.first s.save.1 "criterion_value" = .ok s.crit.val ∧
    readMax s.save.1 = .ok (limitInt s.maxWanted) ∧ readWeights s.save.1 = .ok (weightArg s.lin.weights) ∧
    H5.get? s.save.1 "leftvecs" = some (.mat d.left.toMat) ∧ H5.arr s.save.1 "svdvals" = .ok d.vals ∧
    H5.mat s.save.1 "rightvecs" = .ok R.toMat ∧ readNameOpt s.save.1 = s.lin.name := by
  have hname := hs.name
  obtain ⟨left, vals, right⟩ := d
  have hr : right = some R := hs.right
  subst hr
  have hsvd := hs.svd
  clear hs
  obtain ⟨⟨name, n, r, e, W⟩, crit, mw, mos, rnd, est, svd, cum, res⟩ := s
  simp only at hsvd hname
  subst hsvd
  rcases name with _ | nm
  · rcases mw with _ | m <;> rcases W with _ | ⟨w⟩ | ⟨W⟩ <;>
      simp [Pod.save, SvdData.vals', H5.str, H5.first, H5.arr, H5.mat, H5.get?, H5.vals, nameVals, lookup, readMax, limitInt,
        readWeights, weightVals, weightArg, readNameOpt, bind, Except.bind]
  · have : nm ≠ "" := fun h => hname (by rw [h])
    rcases mw with _ | m <;> rcases W with _ | ⟨w⟩ | ⟨W⟩ <;>
      simp [Pod.save, SvdData.vals', H5.str, H5.first, H5.arr, H5.mat, H5.get?, H5.vals, nameVals, lookup, readMax, limitInt,
        readWeights, weightVals, weightArg, readNameOpt, bind, Except.bind, this]

theorem init_ok (V : Cols K) (hV : V.WF) (W : Option (Weights K)) (hW : weightsFit W V.n) (name : Option String) :
    ∃ w, (LinB.init V W true name).2 = .ok w := by
  simp only [LinB.init, if_true, orthWarn, basisGram_ok hV hW, Except.map]
  exact ⟨_, rfl⟩

theorem setR_ok (s : Pod K) (d : SvdData K) (hd : s.svd = some d) (hV : d.left.WF)
    (hW : weightsFit s.lin.weights d.left.n) (r : Int) : (s.setR r).2 = .ok () := by
  simp only [Pod.setR, hd]
  obtain ⟨w, hw⟩ := init_ok (d.left.upTo (if (d.left.cols.length : Int) < r then (d.left.cols.length : Int) else r))
    (fun c hc => hV c (mem_of_mem_take hc)) s.lin.weights hW s.lin.name
  rw [hw]
  rfl

/-- C45: what `load(save(b), max_vectors)` returns, for every trained POD basis and limit: the saved criterion applied
again to the vectors that are read. -/
theorem C45_pod_load (sqrt : K → K) (toInt : K → Int) (ht : ∀ z : Int, toInt (z : K) = z) (s : Pod K)
    (d : SvdData K) (R : Cols K) (hs : s.Storable d R) (mv : Option Nat) :
    s.save.2 = .ok () ∧ Pod.load sqrt toInt mv s.save.1 = .ok (s.reloaded sqrt d R mv) := by
  obtain ⟨h0, h1, h2, h3, h4, h5, h6, h7, h8⟩ := pod_reads s d R hs
  refine ⟨h0, ?_⟩
  obtain ⟨a, ha, hp⟩ := critOf_pick toInt ht s.crit mv d.left.cols.length
  have hmax : ((limitInt s.maxWanted).any fun m => decide (m ≤ 0)) = false := by
    cases hm : s.maxWanted with
    | none => rfl
    | some m =>
      have := hs.limit m (by rw [hm]; rfl)
      simp only [limitInt, Option.any_some, decide_eq_false_iff_not]
      omega
  have hmap : (limitInt s.maxWanted).map Int.toNat = s.maxWanted := by
    cases s.maxWanted <;> simp [limitInt]
  have hok := setR_ok (⟨⟨s.lin.name, none, none, none, s.lin.weights⟩, s.crit.limited mv d.left.cols.length,
    s.maxWanted, false, false, false, some ⟨⟨d.left.n, d.left.cols.take (readVectors mv d.left.cols.length)⟩, d.vals,
      some ⟨R.n, R.cols.take (readVectors mv d.left.cols.length)⟩⟩, none, none⟩ : Pod K) _ rfl
    (fun c hc => hs.wfLeft c (mem_of_mem_take hc)) hs.fit
    ((s.crit.limited mv d.left.cols.length).dim sqrt d.vals)
  have hload : Pod.loadSvd sqrt s.save.1 a (limitInt s.maxWanted) (weightArg s.lin.weights) mv
      d.left.toMat = .ok (s.reloaded sqrt d R mv) := by
    simp only [Pod.loadSvd, h6, h7, h8, bind, Except.bind, toCols_toMat _ hs.wfLeft, toCols_toMat _ hs.wfRight]
    generalize ha' : (if mv.isSome && a.num.isSome then
      { a with num := some ((readVectors mv d.left.cols.length : Nat) : Int) } else a) = a' at hp ⊢
    have he := pick_provided a' _ hp
    simp only [Pod.fromSvd, he, Bool.false_eq_true, if_false, Pod.make, hp, bind, Except.bind, hmax,
      weightArg_toWeights, pure, Except.pure, Pod.storeSvd, hs.vals, Pod.setFromCrit, hmap]
    rw [hok]
    rfl
  simp only [Pod.load, h1, h2, h3, h4, h5, ha, bind, Except.bind, hload, asLoadError]

/-- The current dimension is the one the criterion selects. -/
def Pod.Agrees (sqrt : K → K) (s : Pod K) (d : SvdData K) : Prop :=
  s.lin.r = some ((effective d.left.cols.length (s.crit.dim sqrt d.vals) : Nat) : Int)

/-- C45 (the part that holds): if the current dimension is the one the criterion selects, `load(save(b))` has the
same entries, dimensions, weights, name, criterion, singular vectors and values, and energies. -/
theorem C45_pod_save_load_partial (sqrt : K → K) (toInt : K → Int) (ht : ∀ z : Int, toInt (z : K) = z) (s : Pod K)
    (d : SvdData K) (R : Cols K) (hs : s.Storable d R) (hR : R.cols.length ≤ d.left.cols.length)
    (hc : s.Consistent) (hsane : s.crit.sane) (hg : s.Agrees sqrt d) :
    ∃ t, Pod.load sqrt toInt none s.save.1 = .ok t ∧ t.lin = s.lin ∧ t.crit = s.crit ∧ t.svd = s.svd ∧
      t.cum = s.cum ∧ t.res = s.res ∧ t.maxWanted = s.maxWanted := by
  refine ⟨_, (C45_pod_load sqrt toInt ht s d R hs none).2, ?_⟩
  have hlim : s.crit.limited none d.left.cols.length = s.crit := by cases s.crit <;> rfl
  have htl : (⟨d.left.n, d.left.cols.take d.left.cols.length⟩ : Cols K) = d.left := by simp
  have htr : (⟨R.n, R.cols.take d.left.cols.length⟩ : Cols K) = R := by
    rw [take_of_length_le hR]
  have hdd : (⟨d.left, d.vals, some R⟩ : SvdData K) = d := by
    have := hs.right
    obtain ⟨a, b, c⟩ := d
    simp only at this
    rw [this]
  simp only [Pod.reloaded, hlim, readVectors, htl, htr, hdd]
  rw [setR_trained _ d rfl _ (Or.inl (Crit.dim_nonneg _ _ hsane _))]
  obtain ⟨r, hr, h1, h2, h3, h4, h5⟩ := hc.trained d hs.svd
  have hreq : effective d.left.cols.length (s.crit.dim sqrt d.vals) = r := by
    unfold Pod.Agrees at hg
    rw [h1] at hg
    simp only [Option.some.injEq] at hg
    omega
  rw [hreq]
  refine ⟨?_, rfl, hs.svd.symm, h4.symm, h5.symm, rfl⟩
  rw [← h1, ← h2, ← h3]

/-- C45: after a successful `fit` the current dimension is the one the criterion selects. -/
theorem C45_agrees_after_fit (ext : PodExt K) (s : Pod K) (Y : Snap K) (hsane : s.crit.sane)
    (hok : (s.fit ext Y).2 = .ok ()) (d : SvdData K) (hd : (s.fit ext Y).1.svd = some d) :
    (s.fit ext Y).1.Agrees ext.sqrt d := by
  revert hok hd
  simp only [Pod.fit]
  cases s.decompose ext Y with
  | error e => intro h; cases h
  | ok q =>
    obtain ⟨V, vals, W⟩ := q
    simp only [Pod.storeSvd]
    cases normalizeVals vals with
    | error e => intro h; cases h
    | ok w =>
      simp only [Pod.setFromCrit]
      intro _ hd
      rw [setR_svd] at hd
      simp only [Option.some.injEq] at hd
      subst hd
      rw [setR_trained _ ⟨V, w, some W⟩ rfl _ (Or.inl (Crit.dim_nonneg _ _ hsane _))]
      rfl

/-- C45: after `set_dimension` the current dimension is the one the criterion selects. -/
theorem C45_agrees_after_set_dimension (sqrt : K → K) (s : Pod K) (a : CritArgs K) (ha : ∀ v ∈ a.num, 0 ≤ v)
    (c : Crit K) (hp : a.pick = .ok c) (d : SvdData K) (hd : s.svd = some d) :
    (s.setDimension sqrt a).1.Agrees sqrt d := by
  have hsane := pick_sane a ha c hp
  simp only [Pod.setDimension, hp, hd, Option.isNone_some, Bool.false_eq_true, if_false, Pod.setFromCrit]
  rw [setR_trained _ d rfl _ (Or.inl (Crit.dim_nonneg _ _ hsane _))]
  rfl

/-- C45: with any criterion but `num_vectors`, `load(max_vectors=m)` has the smaller of `m` and the dimension without
that limit. -/
theorem C45_max_vectors_partial (sqrt : K → K) (s : Pod K) (d : SvdData K) (R : Cols K) (m : Nat)
    (hc : ∀ v, s.crit ≠ .num v) (hs : s.crit.sane) :
    ∃ r : Nat, (s.reloaded sqrt d R none).lin.r = some (r : Int) ∧
      (s.reloaded sqrt d R (some m)).lin.r = some ((min m r : Nat) : Int) := by
  have hlim : ∀ mv, s.crit.limited mv d.left.cols.length = s.crit := by
    intro mv
    cases hcr : s.crit with
    | num v => exact absurd hcr (hc v)
    | _ => cases mv <;> rfl
  have hnn := Crit.dim_nonneg sqrt s.crit hs d.vals
  have hlt : ¬ (s.crit.dim sqrt d.vals < 0) := by omega
  simp only [Pod.reloaded, hlim]
  rw [setR_trained _ _ rfl _ (Or.inl hnn), setR_trained _ _ rfl _ (Or.inl hnn)]
  refine ⟨_, rfl, ?_⟩
  simp only [readVectors, effective, if_neg hlt, length_take]
  congr 2
  omega

/-- C45: with `num_vectors`, `load(max_vectors=m)` has `m` vectors if there are as many, whatever `num_vectors`. -/
theorem C45_max_vectors_num (sqrt : K → K) (s : Pod K) (d : SvdData K) (R : Cols K) (m : Nat) (v : Int)
    (hc : s.crit = .num v) :
    (s.reloaded sqrt d R (some m)).lin.r = some ((min m d.left.cols.length : Nat) : Int) := by
  simp only [Pod.reloaded, hc, Crit.limited, Crit.dim]
  rw [setR_trained _ _ rfl _ (Or.inl (by omega))]
  simp only [effective, readVectors, length_take]
  rw [if_neg (by omega)]
  congr 2
  omega

/-- C45: an untrained basis loads back as freshly constructed with the saved criterion. -/
theorem C45_untrained (sqrt : K → K) (toInt : K → Int) (ht : ∀ z : Int, toInt (z : K) = z) (s : Pod K)
    (hs : s.svd = none) (hm : ∀ m ∈ s.maxWanted, 1 ≤ m) (hn : s.lin.name ≠ some "") (mv : Option Nat) :
    s.save.2 = .ok () ∧ Pod.load sqrt toInt mv s.save.1 =
      .ok ⟨⟨s.lin.name, none, none, none, s.lin.weights⟩, s.crit, s.maxWanted, false, false, false, none, none, none⟩ := by
  obtain ⟨⟨name, n, r, e, W⟩, crit, mw, mos, rnd, est, svd, cum, res⟩ := s
  simp only at hs hm hn
  subst hs
  refine ⟨rfl, ?_⟩
  obtain ⟨a, ha, hp⟩ := critOf_pick toInt ht crit none 0
  simp only [Option.isSome_none, Bool.false_and, Bool.false_eq_true, if_false] at hp
  have hlim : crit.limited none 0 = crit := by cases crit <;> rfl
  rw [hlim] at hp
  have hmax : ((limitInt mw).any fun m => decide (m ≤ 0)) = false := by
    cases mw with
    | none => rfl
    | some m =>
      have := hm m rfl
      simp only [limitInt, Option.any_some, decide_eq_false_iff_not]
      omega
  have hmap : (limitInt mw).map Int.toNat = mw := by cases mw <;> simp [limitInt]
  obtain ⟨h1, h2, h3, h4, h5, h8⟩ : let h := (Pod.save ⟨⟨name, n, r, e, W⟩, crit, mw, mos, rnd, est, none, cum, res⟩).1
      H5.str h "meta.criterion_type" = .ok crit.label ∧ H5.first h "criterion_value" = .ok crit.val ∧
      readMax h = .ok (limitInt mw) ∧ readWeights h = .ok (weightArg W) ∧
      H5.get? h "leftvecs" = none ∧ readNameOpt h = name := by
    rcases name with _ | nm
    · rcases mw with _ | m <;> rcases W with _ | ⟨w⟩ | ⟨W⟩ <;>
        simp [Pod.save, H5.str, H5.first, H5.arr, H5.get?, H5.vals, nameVals, lookup, readMax, limitInt,
          readWeights, weightVals, weightArg, readNameOpt, bind, Except.bind]
    · have : nm ≠ "" := fun h => hn (by rw [h])
      rcases mw with _ | m <;> rcases W with _ | ⟨w⟩ | ⟨W⟩ <;>
        simp [Pod.save, H5.str, H5.first, H5.arr, H5.get?, H5.vals, nameVals, lookup, readMax, limitInt,
          readWeights, weightVals, weightArg, readNameOpt, bind, Except.bind, this]
  simp only [Pod.load, h1, h2, h3, h4, h5, h8, ha, bind, Except.bind, Pod.make, hp, hmax, weightArg_toWeights,
    pure, Except.pure, hmap, asLoadError, Bool.false_eq_true, if_false]

/-! ### The negations -/

theorem exPod_storable : exPod.Storable ⟨⟨3, [[1, 0, 0], [0, 1, 0]]⟩, [1, 1, 1],
    some ⟨3, [[1, 0, 0], [0, 1, 0]]⟩⟩ ⟨3, [[1, 0, 0], [0, 1, 0]]⟩ := by
  refine ⟨rfl, rfl, ?_, ?_, by decide +kernel, ?_, trivial, by simp [exPod]⟩
  · intro c hc; simp at hc; rcases hc with rfl | rfl <;> rfl
  · intro c hc; simp at hc; rcases hc with rfl | rfl <;> rfl
  · intro m hm
    simp [exPod] at hm
    omega

/-- C45, the negation: `reduced_state_dimension = 1` on a trained basis, save, load: dimension 2 again. -/
theorem C45_setter_lost_witness :
    (exPod.setR 1).1.lin.r = some 1 ∧ (exPod.setR 1).1.Storable ⟨⟨3, [[1, 0, 0], [0, 1, 0]]⟩, [1, 1, 1],
      some ⟨3, [[1, 0, 0], [0, 1, 0]]⟩⟩ ⟨3, [[1, 0, 0], [0, 1, 0]]⟩ ∧
    (Pod.load id (fun x : ℚ => x.num) none (exPod.setR 1).1.save.1).map (fun t => t.lin.r) = .ok (some 2) := by
  refine ⟨by decide +kernel, ?_, by decide +kernel⟩
  exact ⟨rfl, rfl, exPod_storable.wfLeft, exPod_storable.wfRight, exPod_storable.vals, exPod_storable.limit,
    trivial, by decide +kernel⟩

/-- C45, the negation: a basis of dimension 1 by `num_vectors=1`, loaded with `max_vectors=2`, has dimension 2. -/
theorem C45_max_vectors_increases_witness :
    let s := (exPod.setDimension id ⟨some 1, none, none, none, none⟩).1
    s.lin.r = some 1 ∧
    (Pod.load id (fun x : ℚ => x.num) (some 2) s.save.1).map (fun t => t.lin.r) = .ok (some 2) := by
  decide +kernel

/-- C45, the negation: an empty name is lost, and a basis without right vectors cannot be saved; the file has been
replaced by then. -/
theorem C45_no_right_vectors (s : Pod K) (d : SvdData K) (hs : s.svd = some d) (hr : d.right = none) :
    s.save.2 = .error .type := by
  simp [Pod.save, hs, SvdData.vals', hr]

/-- `from_svd` without right vectors gives such a basis. -/
theorem C45_from_svd_unsavable_witness :
    (do let s ← Pod.fromSvd (K := ℚ) id ⟨2, [[1, 0], [0, 1]]⟩ [2, 1] none ⟨none, none, none, none, none⟩ none .none none
        s.save.2) = .error .type := by
  decide +kernel

/-! ### Examples -/

example : exPod.Agrees id ⟨⟨3, [[1, 0, 0], [0, 1, 0]]⟩, [1, 1, 1], some ⟨3, [[1, 0, 0], [0, 1, 0]]⟩⟩ ∧
    exPod.crit.sane ∧ (∀ z : Int, (fun x : ℚ => x.num) (z : ℚ) = z) ∧
    (Pod.load id (fun x : ℚ => x.num) none exPod.save.1) = .ok exPod := by
  refine ⟨by unfold Pod.Agrees; decide +kernel, ?_, fun z => by simp, by decide +kernel⟩
  show (0 : Int) ≤ 2
  decide

example : exBasis.Proper ⟨3, [[1/2, 0, 0], [0, 3/5, 4/5]]⟩ ∧ LinB.load exBasis.save.1 = .ok exBasis := by
  refine ⟨⟨⟨rfl, by intro c hc; simp at hc; rcases hc with rfl | rfl <;> rfl, rfl⟩, rfl, rfl⟩, by decide +kernel⟩

end Opinf
