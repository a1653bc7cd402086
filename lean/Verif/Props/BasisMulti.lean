import Verif.Props.PodIO
import Verif.Props.TransformSplit
import Verif.Props.TransformIO

/-!
# C46 and C39 for bases: multi-variable bases act on each variable with its own basis

`Joined c ns Ps Y` says that `Y` consists of the parts `Ps` with `ns` rows each. `BasisMulti` finds out from the
length of an array whether it is a full or a reduced state. If the two total dimensions agree, it is taken as a full
state. This is wrong only if some basis has *more* vectors than rows: `C46_ambiguity_witness`.
-/

namespace Opinf

open List

variable {K S : Type}

/-- The dimensions of the bases. -/
structure BasisDims (I : BasI K S) (bs : List S) (ns rs : List Nat) : Prop where
  nonempty : bs ≠ []
  full : Forall₂ (fun b n => I.n b = some n) bs ns
  reduced : Forall₂ (fun b r => I.r b = some r) bs rs

theorem sizesSum_eq {d : S → Option Nat} {bs : List S} {ns : List Nat} (h : Forall₂ (fun b n => d b = some n) bs ns) :
    sizesSum d bs = some ns.sum ∧ bs.map (fun b => (d b).getD 0) = ns := by
  have h1 : bs.mapM d = some ns := by
    induction h with
    | nil => rfl
    | cons h1 _ ih => simp [mapM_cons, h1, ih]
  refine ⟨by simp [sizesSum, h1], ?_⟩
  clear h1
  induction h with
  | nil => rfl
  | cons h1 _ ih => rw [map_cons, h1, ih]; rfl

theorem BasisDims.ne {I : BasI K S} {bs : List S} {ns rs : List Nat} (h : BasisDims I bs ns rs) : ns ≠ [] ∧ rs ≠ [] :=
  ⟨forall2_ne_nil h.full h.nonempty, forall2_ne_nil h.reduced h.nonempty⟩

/-- C46: if no basis has more vectors than rows, the two total dimensions only agree if all dimensions do. -/
theorem C46_no_ambiguity {ns rs : List Nat} (h : Forall₂ (fun r n => r ≤ n) rs ns) (hs : rs.sum = ns.sum) : rs = ns := by
  have hle : ∀ {rs ns : List Nat}, Forall₂ (fun r n => r ≤ n) rs ns → rs.sum ≤ ns.sum := by
    intro rs ns h
    induction h with
    | nil => simp
    | cons h1 _ ih => simp; omega
  induction h with
  | nil => rfl
  | cons h1 h2 ih =>
    have := hle h2
    simp only [sum_cons] at hs
    have h0 := ih (by omega)
    rw [h0]
    congr 1
    omega

/-- C39: a full state is split into the variables. -/
theorem basisSplit_full {I : BasI K S} {bs : List S} {ns : List Nat}
    (h : Forall₂ (fun b n => I.n b = some n) bs ns) (Y : Snap K) (hY : Y.len = ns.sum) :
    basisSplit I bs Y = .ok (splitSizes ns 0 Y) := by
  obtain ⟨h1, h2⟩ := sizesSum_eq h
  simp only [basisSplit, checkIsReduced, h1, hY, if_true, bind, Except.bind, pure, Except.pure, Bool.false_eq_true,
    if_false, h2]

theorem basisSplit_reduced {I : BasI K S} {bs : List S} {ns rs : List Nat} (h : BasisDims I bs ns rs)
    (ha : rs.sum = ns.sum → rs = ns) (Z : Snap K) (hZ : Z.len = rs.sum) :
    basisSplit I bs Z = .ok (splitSizes rs 0 Z) := by
  by_cases he : rs.sum = ns.sum
  · rw [ha he]
    exact basisSplit_full h.full Z (by rw [hZ, he])
  · obtain ⟨h1, h2⟩ := sizesSum_eq h.full
    obtain ⟨h3, h4⟩ := sizesSum_eq h.reduced
    have hne : ¬ (some ns.sum = some rs.sum) := by
      simp only [Option.some.injEq]
      exact fun e => he e.symm
    simp only [basisSplit, checkIsReduced, h1, hZ, if_neg hne, h3, if_true, bind, Except.bind, pure, Except.pure, h4]

/-- C39: `split` of a full or reduced state returns the variables in order; concatenating them gives the state back. -/
theorem C39_basis_split {I : BasI K S} {bs : List S} {ns rs : List Nat} (h : BasisDims I bs ns rs)
    (ha : rs.sum = ns.sum → rs = ns) (c : Option Nat) (Y : Snap K) :
    (Y.Shaped ns.sum c → ∃ parts, basisSplit I bs Y = .ok parts ∧ Joined c ns parts Y) ∧
    (Y.Shaped rs.sum c → ∃ parts, basisSplit I bs Y = .ok parts ∧ Joined c rs parts Y) ∧
    (Y.len ≠ ns.sum → Y.len ≠ rs.sum → basisSplit I bs Y = .error .dimensionality) := by
  refine ⟨fun hY => ⟨_, basisSplit_full h.full Y hY.len, joined_split hY h.ne.1⟩,
    fun hY => ⟨_, basisSplit_reduced h ha Y hY.len, joined_split hY h.ne.2⟩, fun h1 h2 => ?_⟩
  have e1 : ¬ (some ns.sum = some Y.len) := by simpa using fun e => h1 e.symm
  have e2 : ¬ (some rs.sum = some Y.len) := by simpa using fun e => h2 e.symm
  simp only [basisSplit, checkIsReduced, (sizesSum_eq h.full).1, (sizesSum_eq h.reduced).1, if_neg e1, if_neg e2,
    bind, Except.bind]

/-- C39: `get_var(i)` is part `i` of `split`, for full and reduced states. -/
theorem C39_basis_get_var {I : BasI K S} {bs : List S} {ns rs : List Nat} (h : BasisDims I bs ns rs)
    (ha : rs.sum = ns.sum → rs = ns) (Y : Snap K) (hY : Y.len = ns.sum ∨ Y.len = rs.sum) (i : Nat)
    (hi : i < bs.length) :
    ∃ parts P, basisSplit I bs Y = .ok parts ∧ parts[i]? = some P ∧ basisGetVar I bs (.inl i) Y = .ok P := by
  obtain ⟨red, sizes, hred, hsz, hsp⟩ : ∃ (red : Bool) (sizes : List Nat),
      checkIsReduced (sizesSum I.n bs) (sizesSum I.r bs) Y = .ok red ∧
      bs.map (fun b => ((if red then I.r else I.n) b).getD 0) = sizes ∧
      basisSplit I bs Y = .ok (splitSizes sizes 0 Y) := by
    cases hc : checkIsReduced (sizesSum I.n bs) (sizesSum I.r bs) Y with
    | ok red =>
      refine ⟨red, _, rfl, rfl, ?_⟩
      simp only [basisSplit, hc, bind, Except.bind, pure, Except.pure]
    | error e =>
      exfalso
      have : ∃ p, basisSplit I bs Y = .ok p := by
        rcases hY with hY | hY
        · exact ⟨_, basisSplit_full h.full Y hY⟩
        · exact ⟨_, basisSplit_reduced h ha Y hY⟩
      obtain ⟨p, hp⟩ := this
      simp only [basisSplit, hc, bind, Except.bind] at hp
      cases hp
  have hlen : sizes.length = bs.length := by rw [← hsz, length_map]
  have hin : i < sizes.length := by omega
  refine ⟨_, _, hsp, splitSizes_getElem? sizes 0 Y i hin, ?_⟩
  have hl : ((range (sizes.length + 1)).map fun i => (sizes.take i).sum).length = sizes.length + 1 := by simp
  have e1 : pyIndex (sizes.length + 1) (i : Int) = .ok i := by
    simp only [pyIndex]
    rw [if_pos (by omega), if_pos (by omega)]
    simp
  have e2 : pyIndex (sizes.length + 1) ((i : Int) + 1) = .ok (i + 1) := by
    simp only [pyIndex]
    rw [if_pos (by omega), if_pos (by omega)]
    simp only [Except.ok.injEq]
    omega
  simp only [basisGetVar, varIndex, hred, hsz, hl, e1, e2, bind, Except.bind, pure, Except.pure]
  congr 2
  · simp [getD_eq_getElem?_getD, show i < sizes.length + 1 by omega]
  · rw [Nat.zero_add, ← sum_take_succ sizes i hin]
    simp [getD_eq_getElem?_getD, show i + 1 < sizes.length + 1 by omega]

theorem mapParts_ok {f : S → Snap K → Except Err (Snap K)} {bs : List S} {Ps Qs : List (Snap K)}
    (e : Each3 (fun b P Q => f b P = .ok Q) bs Ps Qs) : mapParts f bs Ps = .ok Qs := by
  unfold mapParts
  induction e with
  | nil => rfl
  | cons h1 _ ih => simp only [zip_cons_cons, mapM_cons, h1, ih, bind, Except.bind, pure, Except.pure]

/-- C46: `compress` compresses each variable with its own basis. -/
theorem C46_compress {I : BasI K S} {bs : List S} {ns rs : List Nat} (h : BasisDims I bs ns rs) {c : Option Nat}
    {Ps Qs : List (Snap K)} {Y Z : Snap K} (hY : Joined c ns Ps Y) (hZ : Joined c rs Qs Z)
    (he : Each3 (fun b P Q => I.compress b P = .ok Q) bs Ps Qs) : basisMultiCompress I bs Y = .ok Z := by
  simp only [basisMultiCompress, basisCheck, (sizesSum_eq h.full).1, hY.whole.len, if_true, bind, Except.bind,
    basisSplit_full h.full Y hY.whole.len, hY.split, mapParts_ok he, hZ.concat]

/-- C46: `decompress` decompresses each variable with its own basis. -/
theorem C46_decompress {I : BasI K S} {bs : List S} {ns rs : List Nat} (h : BasisDims I bs ns rs)
    (ha : rs.sum = ns.sum → rs = ns) {c : Option Nat}
    {Ps Qs : List (Snap K)} {Y Z : Snap K} (hY : Joined c ns Ps Y) (hZ : Joined c rs Qs Z)
    (he : Each3 (fun b Q P => I.decompress b Q none = .ok P) bs Qs Ps) :
    basisMultiDecompress I bs Z none = .ok Y := by
  simp only [basisMultiDecompress, basisCheck, (sizesSum_eq h.reduced).1, hZ.whole.len, if_true, locsCheck,
    Option.isSome_none, Bool.false_and, Bool.false_eq_true, if_false, bind, Except.bind,
    basisSplit_reduced h ha Z hZ.whole.len, hZ.split, mapParts_ok he, hY.concat]

theorem Each3.trans {R R' : S → Snap K → Snap K → Prop} {bs : List S} {Ps Qs Rs : List (Snap K)}
    (e : Each3 R bs Ps Qs) (e' : Each3 R' bs Qs Rs) :
    Each3 (fun b P X => ∃ Q, R b P Q ∧ R' b Q X) bs Ps Rs := by
  induction e generalizing Rs with
  | nil => cases e'; exact .nil
  | cons h1 _ ih => cases e' with
    | cons h2 e2 => exact .cons ⟨_, h1, h2⟩ (ih e2)

/-- C46: `project` projects each variable with its own basis. -/
theorem C46_project {I : BasI K S} {bs : List S} {ns rs : List Nat} (h : BasisDims I bs ns rs)
    (ha : rs.sum = ns.sum → rs = ns) {c : Option Nat}
    {Ps Qs Ps' : List (Snap K)} {Y Z Y' : Snap K} (hY : Joined c ns Ps Y) (hZ : Joined c rs Qs Z)
    (hY' : Joined c ns Ps' Y') (he : Each3 (fun b P Q => I.compress b P = .ok Q) bs Ps Qs)
    (he' : Each3 (fun b Q P => I.decompress b Q none = .ok P) bs Qs Ps') :
    (do basisMultiDecompress I bs (← basisMultiCompress I bs Y) none) = .ok Y' ∧
      Each3 (fun b P P' => I.project b P = .ok P') bs Ps Ps' := by
  constructor
  · simp only [C46_compress h hY hZ he, bind, Except.bind, C46_decompress h ha hY' hZ he']
  · refine Each3.mono ?_ (he.trans he')
    rintro b P P' ⟨Q, h1, h2⟩
    simp only [BasI.project, h1, bind, Except.bind, h2]

/-- C46: with `locs`, the entries at these locations of each variable are returned one variable after the other. -/
theorem C46_decompress_locs {I : BasI K S} {bs : List S} {n : Nat} {rs : List Nat}
    (h : BasisDims I bs (replicate bs.length n) rs) (ha : rs.sum = (replicate bs.length n).sum →
      rs = replicate bs.length n) {c : Option Nat} (l : Locs) (p : Nat)
    {Ps Qs : List (Snap K)} {Y Z : Snap K} (hY : Joined c (replicate bs.length p) Ps Y) (hZ : Joined c rs Qs Z)
    (he : Each3 (fun b Q P => I.decompress b Q (some l) = .ok P) bs Qs Ps) :
    basisMultiDecompress I bs Z (some l) = .ok Y := by
  have hn : bs.map I.n = replicate bs.length (some n) := by
    have : ∀ {bs : List S} {ns : List Nat}, Forall₂ (fun b n => I.n b = some n) bs ns →
        bs.map I.n = ns.map some := by
      intro bs ns hf
      induction hf with
      | nil => rfl
      | cons h1 _ ih => rw [map_cons, map_cons, h1, ih]
    rw [this h.full, map_replicate]
  have hd : ¬ (1 < (bs.map I.n).dedup.length) := by
    rw [hn]
    have hpos : bs.length ≠ 0 := by
      intro h0
      exact h.nonempty (length_eq_zero_iff.1 h0)
    rw [List.replicate_dedup hpos]
    simp
  simp only [basisMultiDecompress, basisCheck, (sizesSum_eq h.reduced).1, hZ.whole.len, if_true, locsCheck,
    Option.isSome_some, Bool.true_and, decide_eq_true_eq, if_neg hd, bind, Except.bind,
    basisSplit_reduced h ha Z hZ.whole.len, hZ.split, mapParts_ok he, hY.concat]

/-- C46: `locs` are refused if the variables have different sizes. -/
theorem C46_locs_refused {I : BasI K S} {bs : List S} {ns rs : List Nat} (h : BasisDims I bs ns rs) (l : Locs)
    (i j : Nat) (hi : i < ns.length) (hj : j < ns.length) (hij : ns[i] ≠ ns[j]) (Z : Snap K) (hZ : Z.len = rs.sum) :
    basisMultiDecompress I bs Z (some l) = .error .value := by
  have hn : bs.map I.n = ns.map some := by
    have hf := h.full
    clear h hij hi hj
    induction hf with
    | nil => rfl
    | cons h1 _ ih => rw [map_cons, map_cons, h1, ih]
  have hd : 1 < (bs.map I.n).dedup.length := by
    rw [hn]
    by_contra hc
    have hall : ∀ a ∈ (ns.map some).dedup, ∀ b ∈ (ns.map some).dedup, a = b := by
      cases hl : (ns.map some).dedup with
      | nil => simp
      | cons x xs =>
        cases xs with
        | nil => simp
        | cons y ys => rw [hl] at hc; simp at hc
    have := hall (some ns[i]) (mem_dedup.2 (mem_map.2 ⟨_, getElem_mem hi, rfl⟩)) (some ns[j])
      (mem_dedup.2 (mem_map.2 ⟨_, getElem_mem hj, rfl⟩))
    simp only [Option.some.injEq] at this
    exact hij this
  simp only [basisMultiDecompress, basisCheck, (sizesSum_eq h.reduced).1, hZ, if_true, locsCheck,
    Option.isSome_some, Bool.true_and, decide_eq_true_eq, if_pos hd, bind, Except.bind]

/-- C46: arrays of a wrong length are refused. -/
theorem C46_wrong_length {I : BasI K S} {bs : List S} {ns rs : List Nat} (h : BasisDims I bs ns rs) (Y : Snap K)
    (locs : Option Locs) :
    (Y.len ≠ ns.sum → basisMultiCompress I bs Y = .error .dimensionality) ∧
    (Y.len ≠ rs.sum → basisMultiDecompress I bs Y locs = .error .dimensionality) := by
  refine ⟨fun hY => ?_, fun hY => ?_⟩
  · simp only [basisMultiCompress, basisCheck, (sizesSum_eq h.full).1, if_neg hY, bind, Except.bind]
  · simp only [basisMultiDecompress, basisCheck, (sizesSum_eq h.reduced).1, if_neg hY, bind, Except.bind]

/-! ### Inversion -/

/-- `compress` undoes `decompress`. -/
def BasI.Section (I : BasI K S) (b : S) (n r : Nat) : Prop :=
  I.n b = some n ∧ I.r b = some r ∧ ∀ Z c, Z.Shaped r c →
    ∃ Y, Y.Shaped n c ∧ I.decompress b Z none = .ok Y ∧ I.compress b Y = .ok Z

/-- A list of bases that are sections, with their dimensions. -/
inductive Sections (I : BasI K S) : List S → List Nat → List Nat → Prop
  | nil : Sections I [] [] []
  | cons {b n r bs ns rs} : I.Section b n r → Sections I bs ns rs → Sections I (b :: bs) (n :: ns) (r :: rs)

theorem Sections.dims {I : BasI K S} {bs : List S} {ns rs : List Nat} (h : Sections I bs ns rs) (hne : bs ≠ []) :
    BasisDims I bs ns rs := by
  have : Forall₂ (fun b n => I.n b = some n) bs ns ∧ Forall₂ (fun b r => I.r b = some r) bs rs := by
    clear hne
    induction h with
    | nil => exact ⟨.nil, .nil⟩
    | cons h1 _ ih => exact ⟨.cons h1.1 ih.1, .cons h1.2.1 ih.2⟩
  exact ⟨hne, this.1, this.2⟩

theorem Sections.parts {I : BasI K S} {bs : List S} {ns rs : List Nat} (h : Sections I bs ns rs) {c : Option Nat}
    {Qs : List (Snap K)} (hQ : Forall₂ (fun Q r => Snap.Shaped Q r c) Qs rs) :
    ∃ Ps, Forall₂ (fun P n => Snap.Shaped P n c) Ps ns ∧
      Each3 (fun b Q P => I.decompress b Q none = .ok P) bs Qs Ps ∧
      Each3 (fun b P Q => I.compress b P = .ok Q) bs Ps Qs := by
  induction h generalizing Qs with
  | nil => cases hQ; exact ⟨[], .nil, .nil, .nil⟩
  | cons h1 _ ih => cases hQ with
    | cons hq hqs =>
      obtain ⟨Ps, p1, p2, p3⟩ := ih hqs
      obtain ⟨P, e1, e2, e3⟩ := h1.2.2 _ c hq
      exact ⟨P :: Ps, .cons e1 p1, .cons e2 p2, .cons e3 p3⟩

/-- C46: if `compress` undoes `decompress` for each basis, it does for the multi-variable basis. -/
theorem C46_compress_decompress {I : BasI K S} {bs : List S} {ns rs : List Nat} (h : Sections I bs ns rs)
    (hne : bs ≠ []) (ha : rs.sum = ns.sum → rs = ns) (Z : Snap K) (c : Option Nat) (hZ : Z.Shaped rs.sum c) :
    ∃ Y, Y.Shaped ns.sum c ∧ basisMultiDecompress I bs Z none = .ok Y ∧ basisMultiCompress I bs Y = .ok Z := by
  have hd := h.dims hne
  have hJ := joined_split hZ hd.ne.2
  obtain ⟨Ps, p1, p2, p3⟩ := h.parts hJ.parts
  obtain ⟨Y, hY⟩ := joined_of_parts p1 hd.ne.1
  exact ⟨Y, hY.whole, C46_decompress hd ha hY hJ p2, C46_compress hd hY hJ p3⟩

/-- C46: orthonormal linear bases are of this kind. -/
theorem C46_linear_section [CommSemiring K] (b : LinB K) (V : Cols K) (hb : b.Proper V)
    (ho : Orthonormal V b.weights) : linI.Section b V.n V.cols.length := by
  refine ⟨hb.dims.1, ?_, fun Z c hZ => C42_compress_decompress b V hb.toHas ho Z c hZ⟩
  simp [linI, hb.dims.2]

/-! ### Fitting -/

theorem fitEach_ok {I : BasI K S} {bs bs' : List S} {Ps : List (Snap K)}
    (e : Each3 (fun b P b' => I.fit b P = (b', .ok ())) bs Ps bs') : fitEach I bs Ps = (bs', .ok ()) := by
  induction e with
  | nil => rfl
  | cons h1 _ ih => simp only [fitEach, h1, ih]

/-- C46: with known variable sizes, `fit` fits each basis to its own variable. -/
theorem C46_fit {I : BasI K S} {bs bs' : List S} {ns : List Nat}
    (h : Forall₂ (fun b n => I.n b = some n) bs ns) {c : Option Nat} {Ps : List (Snap K)} {Y : Snap K}
    (hY : Joined c ns Ps Y) (e : Each3 (fun b P b' => I.fit b P = (b', .ok ())) bs Ps bs') :
    basisMultiFit I bs Y = (bs', .ok ()) := by
  simp only [basisMultiFit, basisSizes, (sizesSum_eq h).1, basisCheck, hY.whole.len, if_true, bind, Except.bind,
    basisSplit_full h Y hY.whole.len, hY.split, fitEach_ok e]

theorem fitEach_fails {I : BasI K S} {bs bs' : List S} {Ps : List (Snap K)}
    (e : Each3 (fun b P b' => I.fit b P = (b', .ok ())) bs Ps bs') (b b' : S) (P : Snap K) (err : Err)
    (hb : I.fit b P = (b', .error err)) (rest : List S) (Ps' : List (Snap K)) :
    fitEach I (bs ++ b :: rest) (Ps ++ P :: Ps') = (bs' ++ b' :: rest, .error err) := by
  induction e with
  | nil => simp only [nil_append, fitEach, hb]
  | cons h1 _ ih => simp only [cons_append, fitEach, h1, ih]

/-- C46: if a basis cannot be fitted, the error is passed on; the bases before it have been fitted to their variables,
those after it are as before (nothing is rolled back). -/
theorem C46_fit_fails {I : BasI K S} {bs bs' rest : List S} {b b' : S} {err : Err} {ns : List Nat}
    (h : Forall₂ (fun b n => I.n b = some n) (bs ++ b :: rest) ns) {c : Option Nat} {Ps Ps' : List (Snap K)} {P Y : Snap K}
    (hY : Joined c ns (Ps ++ P :: Ps') Y) (e : Each3 (fun b P b' => I.fit b P = (b', .ok ())) bs Ps bs')
    (hb : I.fit b P = (b', .error err)) :
    basisMultiFit I (bs ++ b :: rest) Y = (bs' ++ b' :: rest, .error err) := by
  simp only [basisMultiFit, basisSizes, (sizesSum_eq h).1, basisCheck, hY.whole.len, if_true, bind, Except.bind,
    basisSplit_full h Y hY.whole.len, hY.split, fitEach_fails e b b' P err hb]

/-- C46: without known sizes, the states are divided into equal variables. -/
theorem C46_fit_equal_sizes {I : BasI K S} (hI : ∀ b n, I.n (I.setN b n) = some n) {bs bs' : List S} {b0 : S}
    (hb : b0 ∈ bs) (hn : I.n b0 = none) (n : Nat) {c : Option Nat} {Ps : List (Snap K)} {Y : Snap K}
    (hY : Joined c (replicate bs.length n) Ps Y)
    (e : Each3 (fun b P b' => I.fit b P = (b', .ok ())) (bs.map fun b => I.setN b n) Ps bs') :
    basisMultiFit I bs Y = (bs', .ok ()) := by
  have hnone : sizesSum I.n bs = none := by
    unfold sizesSum
    rw [Option.map_eq_none_iff]
    clear hY e
    induction bs with
    | nil => simp at hb
    | cons u us ih =>
      rcases mem_cons.1 hb with rfl | hm
      · simp [mapM_cons, hn]
      · simp [mapM_cons, ih hm]
  have hlen : Y.len = bs.length * n := by rw [hY.whole.len]; simp
  have hpos : 0 < bs.length := length_pos_iff.2 (ne_nil_of_mem hb)
  have hf : Forall₂ (fun b n => I.n b = some n) (bs.map fun b => I.setN b n) (replicate bs.length n) := by
    clear hY e hb hnone hlen hpos
    induction bs with
    | nil => exact .nil
    | cons b bs ih => exact .cons (hI b n) ih
  have hsz : basisSizes I bs Y = .ok (bs.map fun b => I.setN b n) := by
    simp only [basisSizes, hnone, hlen, Nat.mul_mod_right, ne_eq, not_true_eq_false, if_false,
      Nat.mul_div_cancel_left n hpos]
  simp only [basisMultiFit, hsz, (sizesSum_eq hf).1, basisCheck, hY.whole.len, if_true, bind, Except.bind,
    basisSplit_full hf Y hY.whole.len, hY.split, fitEach_ok e]

/-- C46: states that cannot be divided into equal variables are refused. -/
theorem C46_fit_indivisible {I : BasI K S} {bs : List S} (hn : sizesSum I.n bs = none) (Y : Snap K)
    (hY : Y.len % bs.length ≠ 0) : basisMultiFit I bs Y = (bs, .error .dimensionality) := by
  simp only [basisMultiFit, basisSizes, hn, if_pos hY]

/-! ### Saving and loading -/

/-- C46: a multi-variable basis loads back if each basis does. -/
theorem C46_save_load {C : Type} (I : BasI K S) (io : TfIO K C S) (bs : List S) (hne : bs ≠ [])
    (hname : ∀ b ∈ bs, (I.name b).isSome) (h : ∀ b ∈ bs, (io.save b).2 = .ok () ∧
      io.load (io.cls b) (io.save b).1 = .ok b) :
    (multiSave io bs).2 = .ok () ∧ basisMultiLoad I io (bs.map io.cls) (multiSave io bs).1 = .ok bs := by
  have e := saveEach_ok (save := io.save) fun b hb => (h b hb).1
  simp only [multiSave, e, true_and]
  have e2 : H5.nat (.node [("num_variables", .nat bs.length)] (bs.map fun b => (io.save b).1) : H5 K) "num_variables"
      = .ok bs.length := rfl
  have hnames : basisNames I bs = bs := by
    unfold basisNames
    apply ext_getElem (by simp)
    intro i h1 h2
    have := hname bs[i] (getElem_mem h2)
    rw [getElem_mapIdx, if_neg]
    intro hc
    rw [Option.isNone_iff_eq_none] at hc
    rw [hc] at this
    cases this
  have hemp : bs.isEmpty = false := by cases bs; exact absurd rfl hne; rfl
  simp only [basisMultiLoad, e2, bind, Except.bind, length_map, ne_eq, not_true_eq_false, if_false, H5.subs,
    loadEach_ok fun b hb => (h b hb).2, basisMultiMake, hemp, hnames, Bool.false_eq_true, asLoadError]

/-- C46: loading with another number of classes than there are bases is refused. -/
theorem C46_load_wrong_classes {C : Type} (I : BasI K S) (io : TfIO K C S) (bs : List S) (cs : List C)
    (hc : cs.length ≠ bs.length) : basisMultiLoad I io cs (multiSave io bs).1 = .error .loadfileFormat := by
  have e2 : H5.nat (multiSave io bs).1 "num_variables" = .ok bs.length := rfl
  simp only [basisMultiLoad, e2, bind, Except.bind, ne_eq, hc, not_false_eq_true, if_true, asLoadError]
  rfl

/-- C46: the constructor names all bases. -/
theorem C46_constructor_names (I : BasI K S) (hI : ∀ b nm, I.name (I.setName b nm) = nm) (bs bs' : List S)
    (h : basisMultiMake I bs none = .ok bs') : ∀ b ∈ bs', (I.name b).isSome := by
  unfold basisMultiMake at h
  split at h
  · cases h
  · simp only [Except.ok.injEq] at h
    subst h
    intro b hb
    unfold basisNames at hb
    obtain ⟨i, hi, rfl⟩ := mem_mapIdx.1 hb
    split
    · rw [hI]; rfl
    · rename_i hn
      cases hx : I.name bs[i] with
      | none => rw [hx] at hn; simp at hn
      | some _ => rfl

/-! ### The negations -/

/-- One row and two vectors; two rows and one vector. -/
def exAmb : List (LinB ℚ) :=
  [⟨some "a", some 1, some 2, some ⟨1, [[1], [1]]⟩, none⟩, ⟨some "b", some 2, some 1, some ⟨2, [[1, 0]]⟩, none⟩]

/-- C46, the negation without the assumption: with dimensions 1 and 2, and 2 and 1 vectors, `decompress` cuts the
coordinates like a full state and fails, although each basis can decompress its own coordinates. -/
theorem C46_ambiguity_witness :
    BasisDims linI exAmb [1, 2] [2, 1] ∧
    basisMultiDecompress linI exAmb (.vec [1, 2, 3]) none = .error .value ∧
    mapParts (fun b Z => linI.decompress b Z none) exAmb [.vec [1, 2], .vec [3]] = .ok [.vec [3], .vec [3, 0]] := by
  refine ⟨⟨by simp [exAmb], ?_, ?_⟩, by decide +kernel, by decide +kernel⟩
  · exact .cons rfl (.cons rfl .nil)
  · exact .cons rfl (.cons rfl .nil)

/-- If only one of the two total dimensions is known, `split` raises TypeError while formatting its message. -/
theorem C46_half_known_type_error (n : Nat) (Y : Snap K) (h : Y.len ≠ n) :
    checkIsReduced (some n) none Y = .error .type ∧ checkIsReduced none (some n) Y = .error .type := by
  have : ¬ (some n = some Y.len) := by simpa using fun e => h e.symm
  simp [checkIsReduced, this]

/-! ### Examples -/

/-- Two orthonormal bases. -/
def exTwo : List (LinB ℚ) :=
  [⟨some "a", some 2, some 1, some ⟨2, [[3/5, 4/5]]⟩, none⟩,
   ⟨some "b", some 3, some 2, some ⟨3, [[1, 0, 0], [0, 0, 1]]⟩, none⟩]

example : Sections linI exTwo [2, 3] [1, 2] := by
  refine .cons (C46_linear_section _ ⟨2, [[3/5, 4/5]]⟩ ⟨⟨rfl, ?_, trivial⟩, rfl, rfl⟩ ?_)
    (.cons (C46_linear_section _ ⟨3, [[1, 0, 0], [0, 0, 1]]⟩ ⟨⟨rfl, ?_, trivial⟩, rfl, rfl⟩ ?_) .nil)
  · intro c hc; simp at hc; subst hc; rfl
  · rw [orthonormal_iff]; decide +kernel
  · intro c hc; simp at hc; rcases hc with rfl | rfl <;> rfl
  · rw [orthonormal_iff]; decide +kernel

example : basisMultiCompress linI exTwo (.vec [5, 5, 1, 2, 3]) = .ok (.vec [7, 1, 3]) ∧
    basisMultiDecompress linI exTwo (.vec [5, 1, 3]) none = .ok (.vec [3, 4, 1, 0, 3]) ∧
    basisSplit linI exTwo (.vec [5, 1, 3]) = .ok [.vec [5], .vec [1, 3]] ∧
    basisGetVar linI exTwo (.inl 1) (.vec [5, 1, 3]) = .ok (.vec [1, 3]) ∧
    basisMultiDecompress linI exTwo (.vec [5, 1, 3]) (some (.idx [0])) = .error .value := by
  decide +kernel

example : Forall₂ (fun r n => r ≤ n) [1, 2] [2, 3] := .cons (by omega) (.cons (by omega) .nil)

end Opinf
