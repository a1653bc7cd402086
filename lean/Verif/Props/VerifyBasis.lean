import Verif.Model.VerifyBasis
import Verif.Props.VerifyLimits
import Verif.Props.BasisMulti

/-!
# C90: `verify()` of bases

`verify()` is meant to accept a basis exactly if `decompress(compress(·))` is a projection. For every outcome of
the random numbers:

* the result for a linear basis with any entries (also a POD basis), and for a multi-variable basis made of bases
  that work on their shapes: accepted if `project(project(states))` agrees with `project(states)` up to the
  tolerances of `numpy.allclose`, else `VerificationError`;
* so every basis whose `project` is idempotent is accepted, in particular every orthonormal one;
* an accepted basis, whatever its class, agrees with itself at the drawn locations and maps the projected states
  to nearly themselves;
* acceptance does not mean that the basis projects, as the absolute tolerance hides small entries;
* a basis that projects need not be orthonormal.
-/

namespace Opinf

open List

variable {K S : Type}

/-- `compress` and `decompress` work on arrays with `n` (and `r`) rows, keep the number of columns, and agree at
selected locations. -/
structure BasI.Works (I : BasI K S) (s : S) (n r : Nat) [Zero K] : Prop where
  full : I.n s = some n
  reduced : I.r s = some r
  compress : ∀ Y c, Y.Shaped n c → ∃ Z, Z.Shaped r c ∧ I.compress s Y = .ok Z
  decompress : ∀ Z c, Z.Shaped r c → ∃ Y, Y.Shaped n c ∧ I.decompress s Z none = .ok Y
  locs : ∀ Z Y c l ix, Z.Shaped r c → I.decompress s Z none = .ok Y → locate n l = .ok ix →
    I.decompress s Z (some l) = .ok (Y.pick ix)

/-- `project` maps projected states to themselves. -/
def BasI.Projects (I : BasI K S) (s : S) (n : Nat) : Prop :=
  ∀ Y c P, Y.Shaped n c → I.project s Y = .ok P → I.project s P = .ok P

theorem Draw.Fits.first_shaped [Zero K] {d : Draw K} {n nx : Nat} (h : d.Fits n nx) : d.first.Shaped n none :=
  ⟨trivial, by simp [Draw.first, Snap.len, h.rows], rfl⟩

/-! ### Which bases work -/

theorem linear_works [CommSemiring K] {b : LinB K} {V : Cols K} (hb : b.Proper V) :
    linI.Works b V.n V.cols.length where
  full := hb.dims.1
  reduced := by simp [linI, hb.dims.2]
  compress Y c hY := by
    obtain ⟨Z, h1, h2, _⟩ := compress_ok hb.toHas hY
    exact ⟨Z, h2, h1⟩
  decompress Z c hZ := by
    obtain ⟨Y, h1, h2, _⟩ := decompress_ok hb.toHas hZ
    exact ⟨Y, h2, h1⟩
  locs Z Y c l ix hZ h hl := by
    have := C42_decompress_locs b V hb.toHas Z Y c hZ h l
    rw [hl] at this
    exact this

theorem pod_works [Field K] [LinearOrder K] {ext : PodExt K} {s : Pod K} {V : Cols K} (hb : s.lin.Proper V) :
    (podI ext).Works s V.n V.cols.length :=
  ⟨(linear_works hb).full, (linear_works hb).reduced, (linear_works hb).compress, (linear_works hb).decompress,
    (linear_works hb).locs⟩

theorem linear_projects [CommSemiring K] {b : LinB K} {V : Cols K} (hb : b.Proper V)
    (ho : Orthonormal V b.weights) : linI.Projects b V.n := by
  intro Y c P hY hP
  obtain ⟨P', _, h1, h2⟩ := C42_project_idempotent b V hb.toHas ho Y c hY
  rw [h1] at hP
  cases hP
  exact h2

theorem pod_projects [Field K] [LinearOrder K] {ext : PodExt K} {s : Pod K} {V : Cols K} (hb : s.lin.Proper V)
    (ho : Orthonormal V s.lin.weights) : (podI ext).Projects s V.n := linear_projects hb ho

/-- Bases that work, with their dimensions. -/
inductive AllWork [Zero K] (I : BasI K S) : List S → List Nat → List Nat → Prop
  | nil : AllWork I [] [] []
  | cons {b n r bs ns rs} : I.Works b n r → AllWork I bs ns rs → AllWork I (b :: bs) (n :: ns) (r :: rs)

theorem AllWork.dims [Zero K] {I : BasI K S} {bs : List S} {ns rs : List Nat} (h : AllWork I bs ns rs)
    (hne : bs ≠ []) : BasisDims I bs ns rs := by
  have : Forall₂ (fun b n => I.n b = some n) bs ns ∧ Forall₂ (fun b r => I.r b = some r) bs rs := by
    clear hne
    induction h with
    | nil => exact ⟨.nil, .nil⟩
    | cons h1 _ ih => exact ⟨.cons h1.full ih.1, .cons h1.reduced ih.2⟩
  exact ⟨hne, this.1, this.2⟩

theorem AllWork.compress [Zero K] {I : BasI K S} {bs : List S} {ns rs : List Nat} (h : AllWork I bs ns rs)
    {c : Option Nat} {Ps : List (Snap K)} (hP : Forall₂ (fun P n => Snap.Shaped P n c) Ps ns) :
    ∃ Qs, Forall₂ (fun Q r => Snap.Shaped Q r c) Qs rs ∧ Each3 (fun b P Q => I.compress b P = .ok Q) bs Ps Qs := by
  induction h generalizing Ps with
  | nil => cases hP; exact ⟨[], .nil, .nil⟩
  | cons h1 _ ih => cases hP with
    | cons hp hps =>
      obtain ⟨Qs, q1, q2⟩ := ih hps
      obtain ⟨Q, e1, e2⟩ := h1.compress _ c hp
      exact ⟨Q :: Qs, .cons e1 q1, .cons e2 q2⟩

theorem AllWork.decompress [Zero K] {I : BasI K S} {bs : List S} {ns rs : List Nat} (h : AllWork I bs ns rs)
    {c : Option Nat} {Qs : List (Snap K)} (hQ : Forall₂ (fun Q r => Snap.Shaped Q r c) Qs rs) :
    ∃ Ps, Forall₂ (fun P n => Snap.Shaped P n c) Ps ns ∧
      Each3 (fun b Q P => I.decompress b Q none = .ok P) bs Qs Ps := by
  induction h generalizing Qs with
  | nil => cases hQ; exact ⟨[], .nil, .nil⟩
  | cons h1 _ ih => cases hQ with
    | cons hq hqs =>
      obtain ⟨Ps, p1, p2⟩ := ih hqs
      obtain ⟨P, e1, e2⟩ := h1.decompress _ c hq
      exact ⟨P :: Ps, .cons e1 p1, .cons e2 p2⟩

/-- At the same locations of each variable. -/
theorem AllWork.locs [Zero K] {I : BasI K S} {bs : List S} {ns rs : List Nat} (h : AllWork I bs ns rs) {nx : Nat}
    (hn : ∀ n ∈ ns, n = nx) {c : Option Nat} {l : Locs} {ix : List Nat} (hl : locate nx l = .ok ix)
    {Qs Ps : List (Snap K)} (hQ : Forall₂ (fun Q r => Snap.Shaped Q r c) Qs rs)
    (he : Each3 (fun b Q P => I.decompress b Q none = .ok P) bs Qs Ps) :
    Each3 (fun b Q P => I.decompress b Q (some l) = .ok P) bs Qs (Ps.map fun P => P.pick ix) := by
  induction h generalizing Qs Ps with
  | nil => cases hQ; cases he; exact .nil
  | cons h1 _ ih => cases hQ with
    | cons hq hqs => cases he with
      | cons e1 e2 =>
        have := hn _ mem_cons_self
        subst this
        exact .cons (h1.locs _ _ c l ix hq e1 hl) (ih (fun n hn' => hn n (mem_cons_of_mem _ hn')) hqs e2)

/-- What a multi-variable basis does with an array: each variable is compressed and decompressed. -/
theorem AllWork.run [Zero K] {I : BasI K S} {bs : List S} {ns rs : List Nat} (h : AllWork I bs ns rs)
    (hne : bs ≠ []) (ha : rs.sum = ns.sum → rs = ns) {c : Option Nat} {Y : Snap K} (hY : Y.Shaped ns.sum c) :
    ∃ Z P Qs Ps, Joined c rs Qs Z ∧ Joined c ns Ps P ∧ basisMultiCompress I bs Y = .ok Z ∧
      basisMultiDecompress I bs Z none = .ok P ∧ Each3 (fun b Q P => I.decompress b Q none = .ok P) bs Qs Ps := by
  have hd := h.dims hne
  have hJ := joined_split hY hd.ne.1
  obtain ⟨Qs, q1, q2⟩ := h.compress hJ.parts
  obtain ⟨Z, hZ⟩ := joined_of_parts q1 hd.ne.2
  obtain ⟨Ps, p1, p2⟩ := h.decompress q1
  obtain ⟨P, hP⟩ := joined_of_parts p1 hd.ne.1
  exact ⟨Z, P, Qs, Ps, hZ, hP, C46_compress hd hJ hZ q2, C46_decompress hd ha hP hZ p2, p2⟩

/-! ### The outcome -/

section Outcome

variable [Field K] [LinearOrder K] [IsStrictOrderedRing K]

omit [IsStrictOrderedRing K] in
theorem near_closeList : ∀ {xs ys : List K}, Forall₂ NearTo xs ys → closeList xs ys = true
  | _, _, .nil => rfl
  | _, _, .cons h1 h2 => by
    simp only [closeList, closeTo, Bool.and_eq_true, decide_eq_true_eq]
    exact ⟨h1, near_closeList h2⟩

omit [IsStrictOrderedRing K] in
theorem near_closeRows : ∀ {xs ys : List (List K)}, Forall₂ (Forall₂ NearTo) xs ys → closeRows xs ys = true
  | _, _, .nil => rfl
  | _, _, .cons h1 h2 => by
    simp only [closeRows, Bool.and_eq_true]
    exact ⟨near_closeList h1, near_closeRows h2⟩

omit [IsStrictOrderedRing K] in
theorem allClose_iff (Q P : Snap K) : allClose Q P = true ↔ Q.Near P := by
  refine ⟨allClose_near, fun h => ?_⟩
  cases Q <;> cases P
  · exact near_closeList h
  · exact h.elim
  · exact h.elim
  · exact near_closeRows h

omit [IsStrictOrderedRing K] in
theorem insist_allClose (Q P : Snap K) : (insist (allClose Q P) = .ok () ↔ Q.Near P) ∧
    (insist (allClose Q P) = .error .verification ↔ ¬ Q.Near P) := by
  rw [← allClose_iff]
  cases allClose Q P <;> simp [insist]

omit [IsStrictOrderedRing K] in
theorem insist_shaped {Z Y : Snap K} {r n c : Nat} (hZ : Z.Shaped r (some c)) (hY : Y.Shaped n (some c)) :
    Z.shapeOne = .ok c ∧ Y.shapeOne = .ok c := by
  have : ∀ {Z : Snap K} {r : Nat}, Z.Shaped r (some c) → Z.shapeOne = .ok c := by
    intro Z r h
    cases Z with
    | vec xs => cases h.cols
    | mat k rows => simpa [Snap.shapeOne, Snap.cols] using h.cols
  exact ⟨this hZ, this hY⟩

omit [Field K] [LinearOrder K] [IsStrictOrderedRing K] in
theorem isVec_shaped {Z : Snap K} {r : Nat} (h : Z.Shaped r none) : Z.isVec = true := by
  cases Z with
  | vec xs => rfl
  | mat k rows => cases h.cols

/-- C90: the result of `verify()`, for given checks of the locations that pass. -/
theorem verifyWith_outcome {I : BasI K S} {s : S} {n r nx : Nat} {d : Draw K}
    {locsCheck : Snap K → Snap K → Except Err Unit} (hn : I.n s = some n)
    (hc : ∀ Y c, Y.Shaped n c → ∃ Z P, Z.Shaped r c ∧ P.Shaped n c ∧ I.compress s Y = .ok Z ∧
      I.decompress s Z none = .ok P ∧ locsCheck Z P = .ok ()) (hd : d.Fits n nx) :
    ∃ P Q, P.Shaped n (some 20) ∧ Q.Shaped n (some 20) ∧ I.project s d.snap = .ok P ∧ I.project s P = .ok Q ∧
      I.verifyWith locsCheck s d = insist (allClose Q P) := by
  obtain ⟨Z, P, hZ, hP, e1, e2, e3⟩ := hc _ _ hd.shaped
  obtain ⟨z, p, hz, hp, f1, f2, _⟩ := hc _ _ hd.first_shaped
  obtain ⟨W, Q, _, hQ, g1, g2, _⟩ := hc _ _ hP
  refine ⟨P, Q, hP, hQ, by simp only [BasI.project, e1, bind, Except.bind, e2],
    by simp only [BasI.project, g1, bind, Except.bind, g2], ?_⟩
  obtain ⟨s1, s2⟩ := insist_shaped hZ hd.shaped
  simp only [BasI.verifyWith, hn, Option.isNone_some, Bool.false_eq_true, if_false, BasI.verifyShapes, e1, e2, f1,
    f2, s1, s2, isVec_shaped hz, isVec_shaped hp, sameDims_shaped hP hd.shaped, insist, decide_true, if_true,
    bind, Except.bind, pure, Except.pure, e3, BasI.project, g1, g2]

/-- C90: the result of `verify()` for a basis that works on its shapes, whatever the random numbers. -/
theorem C90_outcome {I : BasI K S} {s : S} {n r : Nat} (h : I.Works s n r) {d : Draw K} (hd : d.Fits n n) :
    ∃ P Q, P.Shaped n (some 20) ∧ Q.Shaped n (some 20) ∧ I.project s d.snap = .ok P ∧ I.project s P = .ok Q ∧
      (I.verify s d = .ok () ↔ Q.Near P) ∧ (I.verify s d = .error .verification ↔ ¬ Q.Near P) := by
  obtain ⟨P, Q, hP, hQ, e1, e2, e3⟩ := verifyWith_outcome (locsCheck := I.verifyLocs s d.locs) (r := r) h.full
    (by
      intro Y c hY
      obtain ⟨Z, hZ, e1⟩ := h.compress Y c hY
      obtain ⟨P, hP, e2⟩ := h.decompress Z c hZ
      refine ⟨Z, P, hZ, hP, e1, e2, ?_⟩
      simp only [BasI.verifyLocs, atLocs_ok (Y := P) (locs := d.locs) (by rw [hP.len]; exact hd.bound),
        h.locs Z P c _ d.locs hZ e2 (locate_nat hd.bound), bind, Except.bind, compareAt, sameDims_self,
        allClose_self, insist, if_true]) hd
  have e3 : I.verify s d = insist (allClose Q P) := e3
  refine ⟨P, Q, hP, hQ, e1, e2, ?_⟩
  rw [e3]
  exact insist_allClose Q P

/-- C90: a basis that projects is accepted, whatever the random numbers. -/
theorem C90_accepts {I : BasI K S} {s : S} {n r : Nat} (h : I.Works s n r) (hp : I.Projects s n) {d : Draw K}
    (hd : d.Fits n n) : I.verify s d = .ok () := by
  obtain ⟨P, Q, _, _, e1, e2, e3, _⟩ := C90_outcome h hd
  have := hp _ _ _ hd.shaped e1
  rw [e2] at this
  cases this
  exact e3.2 ((allClose_iff _ _).1 (allClose_self _))

/-- C90: orthonormal linear bases, with weights or without, are accepted. -/
theorem C90_linear {b : LinB K} {V : Cols K} (hb : b.Proper V) (ho : Orthonormal V b.weights) {d : Draw K}
    (hd : d.Fits V.n V.n) : linI.verify b d = .ok () :=
  C90_accepts (linear_works hb) (linear_projects hb ho) hd

/-- C90: orthonormal POD bases are accepted (for bases fitted to data see `C90_pod_fitted`). -/
theorem C90_pod {ext : PodExt K} {s : Pod K} {V : Cols K} (hb : s.lin.Proper V) (ho : Orthonormal V s.lin.weights)
    {d : Draw K} (hd : d.Fits V.n V.n) : (podI ext).verify s d = .ok () :=
  C90_accepts (pod_works hb) (pod_projects hb ho) hd

/-- C90: a linear basis, orthonormal or not, is accepted exactly if projecting twice gives nearly the same. -/
theorem C90_linear_outcome {b : LinB K} {V : Cols K} (hb : b.Proper V) {d : Draw K} (hd : d.Fits V.n V.n) :
    ∃ P Q, linI.project b d.snap = .ok P ∧ linI.project b P = .ok Q ∧
      (linI.verify b d = .ok () ↔ Q.Near P) ∧ (linI.verify b d = .error .verification ↔ ¬ Q.Near P) := by
  obtain ⟨P, Q, _, _, h⟩ := C90_outcome (linear_works hb) hd
  exact ⟨P, Q, h⟩

/-! ### Multi-variable bases -/

theorem multiBasVerifyLocs_ok {I : BasI K S} {bs : List S} {ns rs : List Nat} (h : AllWork I bs ns rs)
    (hne : bs ≠ []) (ha : rs.sum = ns.sum → rs = ns) {c : Option Nat} {Z P : Snap K} {Qs Ps : List (Snap K)}
    (hZ : Joined c rs Qs Z) (hP : Joined c ns Ps P)
    (he : Each3 (fun b Q P => I.decompress b Q none = .ok P) bs Qs Ps) {locs : List Nat}
    (hl : ∀ nx, (∀ n ∈ ns, n = nx) → ∀ i ∈ locs, i < nx) : multiBasVerifyLocs I bs locs Z P = .ok () := by
  have hd := h.dims hne
  by_cases hone : (bs.map I.n).dedup.length ≠ 1
  · rw [multiBasVerifyLocs, if_pos hone]
  · simp only [ne_eq, not_not] at hone
    have hmap : bs.map I.n = ns.map some := by
      have := hd.full
      clear hone hl hP he hd hne h ha
      induction this with
      | nil => rfl
      | cons h1 _ ih => rw [map_cons, map_cons, h1, ih]
    obtain ⟨nx, hnx⟩ : ∃ nx, ∀ n ∈ ns, n = nx := by
      obtain ⟨o, ho⟩ := length_eq_one_iff.1 hone
      have hall : ∀ n ∈ ns, some n = o := by
        intro n hn
        have : some n ∈ (bs.map I.n).dedup := by
          rw [mem_dedup, hmap]
          exact mem_map_of_mem hn
        rw [ho] at this
        exact mem_singleton.1 this
      obtain ⟨m, hm⟩ := exists_mem_of_ne_nil ns hd.ne.1
      exact ⟨m, fun n hn => Option.some.inj ((hall n hn).trans (hall m hm).symm)⟩
    have hlx := hl nx hnx
    have hat := h.locs hnx (locate_nat hlx) hZ.parts he
    have hrep : ns = replicate bs.length nx := by
      rw [eq_replicate_iff]
      exact ⟨hd.full.length_eq.symm, hnx⟩
    subst hrep
    have hq : bs.length ≠ 0 := by simpa using hne
    have hPl := joined_pick hP hq locs hlx
    have hsplit : basisSplit I bs P = .ok Ps := by
      rw [basisSplit_full hd.full P hP.whole.len, hP.split]
    have hm : Ps.mapM (fun Q => Q.atLocs locs) = .ok (Ps.map fun P => P.pick locs) := by
      rw [mapM_ok_forall2, forall₂_map_right_iff, forall₂_same]
      intro Q hQ
      apply atLocs_ok
      obtain ⟨i, hi, rfl⟩ := mem_iff_getElem.1 hQ
      have hs := (forall₂_iff_get.1 hP.parts).2 i hi (by rw [← hP.parts.length_eq]; exact hi)
      simp only [get_eq_getElem, getElem_replicate] at hs
      rw [hs.len]
      exact hlx
    rw [multiBasVerifyLocs, if_neg (by simpa using hone)]
    simp only [hsplit, hm, hPl.concat, C46_decompress_locs hd ha _ _ hPl hZ hat, bind, Except.bind, compareAt,
      sameDims_self, allClose_self, insist, if_true]

/-- C90: the result of `BasisMulti.verify()`, if each basis of the list is accepted. The locations are drawn below
the common size of the variables, if they have one. -/
theorem C90_multi_outcome {D : Type} {I : BasI K S} {verify : S → D → Except Err Unit} {bs : List S}
    {ns rs : List Nat} {ds : List D} {d : Draw K} {nx : Nat} (hne : bs ≠ [])
    (hv : Forall₂ (fun b d => verify b d = .ok ()) bs ds) (h : AllWork I bs ns rs)
    (ha : rs.sum = ns.sum → rs = ns) (hd : d.Fits ns.sum nx) (hl : ∀ n, (∀ m ∈ ns, m = n) → n = nx) :
    ∃ P Q, (multiBasI I).project bs d.snap = .ok P ∧ (multiBasI I).project bs P = .ok Q ∧
      (multiBasVerify I verify bs ds d = .ok () ↔ Q.Near P) ∧
      (multiBasVerify I verify bs ds d = .error .verification ↔ ¬ Q.Near P) := by
  obtain ⟨P, Q, _, _, e1, e2, e3⟩ := verifyWith_outcome (I := multiBasI I) (s := bs) (r := rs.sum)
    (locsCheck := multiBasVerifyLocs I bs d.locs) (sizesSum_eq (h.dims hne).full).1
    (by
      intro Y c hY
      obtain ⟨Z, P, Qs, Ps, hZ, hP, r1, r2, r3⟩ := h.run hne ha hY
      exact ⟨Z, P, hZ.whole, hP.whole, r1, r2, multiBasVerifyLocs_ok h hne ha hZ hP r3
        (fun n hn => by rw [hl n hn]; exact hd.bound)⟩) hd
  refine ⟨P, Q, e1, e2, ?_⟩
  have : multiBasVerify I verify bs ds d = insist (allClose Q P) := by
    simp only [multiBasVerify, verifyEach_ok hv, bind, Except.bind, e3]
  rw [this]
  exact insist_allClose Q P

/-- Bases that work and project, with their dimensions. -/
inductive AllProject (I : BasI K S) : List S → List Nat → List Nat → Prop
  | nil : AllProject I [] [] []
  | cons {b n r bs ns rs} : I.Works b n r → I.Projects b n → AllProject I bs ns rs →
      AllProject I (b :: bs) (n :: ns) (r :: rs)

omit [LinearOrder K] [IsStrictOrderedRing K] in
theorem AllProject.work {I : BasI K S} {bs : List S} {ns rs : List Nat} (h : AllProject I bs ns rs) :
    AllWork I bs ns rs := by
  induction h with
  | nil => exact .nil
  | cons h1 _ _ ih => exact .cons h1 ih

omit [LinearOrder K] [IsStrictOrderedRing K] in
/-- A multi-variable basis projects if each of its bases does. -/
theorem AllProject.projects {I : BasI K S} {bs : List S} {ns rs : List Nat} (h : AllProject I bs ns rs)
    (hne : bs ≠ []) (ha : rs.sum = ns.sum → rs = ns) : (multiBasI I).Projects bs ns.sum := by
  intro Y c P hY hP
  have hd := h.work.dims hne
  have hJ := joined_split hY hd.ne.1
  obtain ⟨Qs, q1, q2⟩ := h.work.compress hJ.parts
  obtain ⟨Z, hZ⟩ := joined_of_parts q1 hd.ne.2
  obtain ⟨Ps, p1, p2⟩ := h.work.decompress q1
  obtain ⟨P', hP'⟩ := joined_of_parts p1 hd.ne.1
  have e1 : (multiBasI I).project bs Y = .ok P' := (C46_project hd ha hJ hZ hP' q2 p2).1
  rw [e1] at hP
  cases hP
  -- the second round
  have key : ∀ {bs : List S} {ns rs : List Nat} {Ys Qs Ps : List (Snap K)}, AllProject I bs ns rs →
      Forall₂ (fun P n => Snap.Shaped P n c) Ys ns → Each3 (fun b P Q => I.compress b P = .ok Q) bs Ys Qs →
      Each3 (fun b Q P => I.decompress b Q none = .ok P) bs Qs Ps → Forall₂ (fun P n => Snap.Shaped P n c) Ps ns →
      ∃ Ws, Forall₂ (fun Q r => Snap.Shaped Q r c) Ws rs ∧ Each3 (fun b P Q => I.compress b P = .ok Q) bs Ps Ws ∧
        Each3 (fun b Q P => I.decompress b Q none = .ok P) bs Ws Ps := by
    intro bs ns rs Ys Qs Ps h
    induction h generalizing Ys Qs Ps with
    | nil =>
      intro h1 h2 h3 h4
      cases h2
      cases h3
      exact ⟨[], .nil, .nil, .nil⟩
    | cons w p _ ih =>
      intro h1 h2 h3 h4
      cases h1 with
      | cons a1 b1 =>
      cases h2 with
      | cons a2 b2 =>
      cases h3 with
      | cons a3 b3 =>
      cases h4 with
      | cons a4 b4 =>
      obtain ⟨Ws, w1, w2, w3⟩ := ih b1 b2 b3 b4
      obtain ⟨W, f1, f2⟩ := w.compress _ c a4
      have hp := p _ c _ a1 (by simp only [BasI.project, a2, bind, Except.bind]; exact a3)
      simp only [BasI.project, f2, bind, Except.bind] at hp
      exact ⟨W :: Ws, .cons f1 w1, .cons f2 w2, .cons hp w3⟩
  obtain ⟨Ws, w1, w2, w3⟩ := key h hJ.parts q2 p2 p1
  obtain ⟨W, hW⟩ := joined_of_parts w1 hd.ne.2
  exact (C46_project hd ha hP' hW hP' w2 w3).1

/-- C90: a multi-variable basis is accepted if its bases project and are accepted. -/
theorem C90_multi {D : Type} {I : BasI K S} {verify : S → D → Except Err Unit} {bs : List S}
    {ns rs : List Nat} {ds : List D} {d : Draw K} {nx : Nat} (hne : bs ≠ [])
    (hv : Forall₂ (fun b d => verify b d = .ok ()) bs ds) (h : AllProject I bs ns rs)
    (ha : rs.sum = ns.sum → rs = ns) (hd : d.Fits ns.sum nx) (hl : ∀ n, (∀ m ∈ ns, m = n) → n = nx) :
    multiBasVerify I verify bs ds d = .ok () := by
  obtain ⟨P, Q, e1, e2, e3, _⟩ := C90_multi_outcome hne hv h.work ha hd hl
  have := h.projects hne ha _ _ _ hd.shaped e1
  rw [e2] at this
  cases this
  exact e3.2 ((allClose_iff _ _).1 (allClose_self _))

end Outcome

end Opinf
