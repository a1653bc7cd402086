import Verif.Props.VerifyOp

/-!
# C89: exactly which transformers `verify()` accepts

`C89_accepted` says what acceptance establishes; the statement here is an equivalence, with the shapes.
-/

namespace Opinf

open List

variable {K S : Type}

/-- The arrays have the same number of axes and the same size along each of them. -/
def Snap.SameSize (Y Z : Snap K) : Prop := Y.len = Z.len ∧ Y.cols = Z.cols

theorem sameDims_iff (Y Z : Snap K) : sameDims Y Z = true ↔ Y.SameSize Z := by
  cases Y <;> cases Z <;> simp [sameDims, Snap.SameSize, Snap.len, Snap.cols, and_comm]

theorem atLocs_iff [Field K] [LinearOrder K] {Y W : Snap K} {locs : List Nat} :
    Y.atLocs locs = .ok W ↔ (∀ i ∈ locs, i < Y.len) ∧ W = Y.pick locs := by
  have hp : ∀ i : Nat, i < Y.len → pyIndex Y.len (i : Int) = .ok i := by
    intro i hi
    simp [pyIndex, hi]
  have hn : ∀ i : Nat, ¬ i < Y.len → ∃ e, pyIndex Y.len (i : Int) = .error e := by
    intro i hi
    refine ⟨.index, ?_⟩
    have : ¬ ((i : Int) < (Y.len : Int)) := by omega
    simp [pyIndex, hi]
  constructor
  · intro h
    refine ⟨?_, atLocs_inv h⟩
    simp only [Snap.atLocs, exBind_iff] at h
    obtain ⟨ix, hm, -⟩ := h
    rw [mapM_ok_forall2] at hm
    intro i hi
    obtain ⟨j, -, hj⟩ := forall2_right_mem hm.flip hi
    by_contra hlt
    obtain ⟨e, he⟩ := hn i hlt
    rw [show pyIndex Y.len (i : Int) = .ok j from hj] at he
    cases he
  · rintro ⟨h, rfl⟩
    have hm : locs.mapM (fun i : Nat => pyIndex Y.len (i : Int)) = .ok locs := by
      rw [mapM_ok_forall2, forall₂_same]
      exact fun i hi => hp i (h i hi)
    simp only [Snap.atLocs, bind, Except.bind, hm]
    rfl

section Exact

variable [Field K] [LinearOrder K] [IsStrictOrderedRing K]

theorem compareNorm_iff {sqrt : K → K} (hsqrt : ∀ x, 0 ≤ sqrt x) {tol : K} {E F : Snap K} :
    compareRel sqrt tol E F = .ok () ↔ ∃ G, E.minus F = .ok G ∧ G.norm sqrt ≤ tol * F.norm sqrt := by
  refine ⟨compareRel_inv hsqrt, ?_⟩
  rintro ⟨G, h1, h2⟩
  have hn : ∀ Y : Snap K, 0 ≤ Y.norm sqrt := by
    intro Y
    cases Y <;> exact hsqrt _
  simp only [compareRel, h1, bind, Except.bind, insist_iff, ratio]
  by_cases hF : F.norm sqrt = 0
  · have hG : G.norm sqrt = 0 := le_antisymm (by simpa [hF] using h2) (hn G)
    rw [if_pos hF, if_pos hG]
    rfl
  · rw [if_neg hF]
    simp only [Val.exceeds, Bool.not_eq_true', decide_eq_false_iff_not, not_lt]
    exact (div_le_iff₀ (lt_of_le_of_ne (hn F) (Ne.symm hF))).2 h2

/-- The methods work on the states `Y`: transforming and recovering, in place or not. -/
def TfI.RoundTrips (I : TfI K S) (s : S) (Y Z : Snap K) : Prop :=
  (∃ Z₁, (I.transform s false Y).2 = .ok Z₁ ∧ Z₁.SameSize Y) ∧ I.transform s true Y = (Z, .ok Z) ∧
    (∃ R, (I.inverse s false Z none).2 = .ok R ∧ R.SameSize Y) ∧
    ∃ R, I.inverse s true Z none = (R, .ok R) ∧ R.Near Y

/-- The states are recovered at some of their entries. -/
def TfI.RecoversAt (I : TfI K S) (s : S) (locs : List Nat) (Y Z : Snap K) : Prop :=
  (∀ i ∈ locs, i < Y.len ∧ i < Z.len) ∧
    ∃ W, (I.inverse s false (Z.pick locs) (some (.idx (locs.map fun i : Nat => (i : Int))))).2 = .ok W ∧
      W.SameSize (Y.pick locs) ∧ W.Near (Y.pick locs)

/-- The transformed finite differences of `Y` are, up to `tol`, those of the transformed states `Z`. -/
def TfI.DdtsAgree (sqrt : K → K) (I : TfI K S) (s : S) (tol : K) (Y Z : Snap K) : Prop :=
  ∃ X D E F G, (I.ddts s false Y).2 = .ok X ∧ Y.ddt verifyTimes = .ok D ∧ (I.ddts s false D).2 = .ok E ∧
    Z.ddt verifyTimes = .ok F ∧ E.minus F = .ok G ∧ G.norm sqrt ≤ tol * F.norm sqrt ∧
    ∃ E₂, I.ddts s true D = (E₂, .ok E₂)

omit [IsStrictOrderedRing K] in
theorem verifyInverse_iff {I : TfI K S} {s : S} {Y Y' Z : Snap K} (hc : I.Careful s) :
    I.verifyInverse s Y = .ok (Y', Z) ↔ Y' = Y ∧ I.RoundTrips s Y Z := by
  simp only [TfI.verifyInverse, exBind_iff, exists_unit_iff, insist_iff, hc.transform, hc.inverse, sameDims_iff,
    allClose_iff, decide_eq_true_eq, pure, Except.pure, Except.ok.injEq, Prod.mk.injEq, TfI.RoundTrips]
  constructor
  · rintro ⟨Z₁, h1, h2, Z₂, h3, h4, R₁, h5, h6, R₂, h7, h8, h9, rfl, rfl⟩
    exact ⟨rfl, ⟨Z₁, h1, h2⟩, Prod.ext h4 h3, ⟨R₁, h5, h6⟩, R₂, Prod.ext h8 h7, h9⟩
  · rintro ⟨rfl, ⟨Z₁, h1, h2⟩, h3, ⟨R₁, h5, h6⟩, R₂, h7, h9⟩
    refine ⟨Z₁, h1, h2, Z, by rw [h3], by rw [h3], R₁, h5, h6, R₂, by rw [h7], by rw [h7], h9, rfl, rfl⟩

omit [IsStrictOrderedRing K] in
theorem verifyLocs_iff {I : TfI K S} {s : S} {locs : List Nat} {Y Z : Snap K} :
    I.verifyLocs s locs Y Z = .ok () ↔ I.RecoversAt s locs Y Z := by
  simp only [TfI.verifyLocs, compareAt, exBind_iff, exists_unit_iff, insist_iff, sameDims_iff, allClose_iff,
    atLocs_iff, TfI.RecoversAt]
  constructor
  · rintro ⟨A, ⟨h1, rfl⟩, W, h2, B, ⟨h3, rfl⟩, h4⟩
    exact ⟨fun i hi => ⟨h3 i hi, h1 i hi⟩, W, h2, h4⟩
  · rintro ⟨h1, W, h2, h4⟩
    exact ⟨_, ⟨fun i hi => (h1 i hi).2, rfl⟩, W, h2, _, ⟨fun i hi => (h1 i hi).1, rfl⟩, h4⟩

theorem verifyDdts_iff {sqrt : K → K} (hsqrt : ∀ x, 0 ≤ sqrt x) {tol : K} {I : TfI K S} {s : S} {Y Z : Snap K}
    (hc : I.Careful s) : I.verifyDdts sqrt s tol Y Z = .ok () ↔
      (I.ddts s false Y).2 = .error .notImplemented ∨ I.DdtsAgree sqrt s tol Y Z := by
  have hcY := hc.ddts Y
  unfold TfI.verifyDdts TfI.DdtsAgree
  obtain ⟨A, r, hA⟩ : ∃ A r, I.ddts s false Y = (A, r) := ⟨_, _, rfl⟩
  rw [hA] at hcY ⊢
  simp only at hcY
  subst hcY
  cases r with
  | error e => cases e <;> simp
  | ok X =>
    simp only [TfI.compareDdts, exBind_iff, exists_unit_iff, insist_iff, hc.ddts, compareNorm_iff hsqrt,
      decide_eq_true_eq, reduceCtorEq, false_or]
    constructor
    · rintro ⟨D, h1, E, h2, F, h3, ⟨G, h4, h5⟩, E₂, h6, h7⟩
      exact ⟨X, D, E, F, G, rfl, h1, h2, h3, h4, h5, E₂, Prod.ext h7 h6⟩
    · rintro ⟨-, D, E, F, G, -, h1, h2, h3, h4, h5, E₂, h6⟩
      exact ⟨D, h1, E, h2, F, h3, ⟨G, h4, h5⟩, E₂, by rw [h6], by rw [h6]⟩

/-- **C89.** A transformer that leaves its argument alone when `inplace=False` is accepted if and only if it has a state
dimension, transforms the drawn states to an array of the same shape, in place or not, recovers them, in place or not,
and at the drawn locations, and unless `transform_ddts` is not implemented, transformed finite differences agree with
the finite differences of the transformed states. -/
theorem C89_accepted_iff {sqrt : K → K} (hsqrt : ∀ x, 0 ≤ sqrt x) {tol : K} {I : TfI K S} {s : S} {d : Draw K}
    (hc : I.Careful s) : I.verify sqrt s tol d = .ok () ↔
      (I.dim s).isSome ∧ ∃ Z, I.RoundTrips s d.snap Z ∧ I.RecoversAt s d.locs d.snap Z ∧
        ((I.ddts s false d.snap).2 = .error .notImplemented ∨ I.DdtsAgree sqrt s tol d.snap Z) := by
  unfold TfI.verify TfI.verifyWith
  split
  · rename_i h
    simp only [reduceCtorEq, false_iff]
    rintro ⟨h', -⟩
    rw [Option.isNone_iff_eq_none] at h
    rw [h] at h'
    cases h'
  · rename_i h
    have h : (I.dim s).isSome := Option.isSome_iff_ne_none.2 (by simpa using h)
    simp only [h, true_and, exBind_iff, exists_unit_iff, verifyLocs_iff, verifyDdts_iff hsqrt hc, Prod.exists,
      verifyInverse_iff hc]
    constructor
    · rintro ⟨Y, Z, ⟨rfl, h1⟩, h2, h3⟩
      exact ⟨Z, h1, h2, h3⟩
    · rintro ⟨Z, h1, h2, h3⟩
      exact ⟨_, Z, ⟨rfl, h1⟩, h2, h3⟩

omit [IsStrictOrderedRing K] in
/-- **C89 (the error).** If the transformed states have the wrong shape, or all methods answer but the states are not
recovered, `verify()` raises `VerificationError`. -/
theorem C89_unrecovered_refused (sqrt : K → K) (tol : K) {I : TfI K S} {s : S} {d : Draw K} (hc : I.Careful s)
    (hdim : (I.dim s).isSome) {Z₁ : Snap K} (h1 : (I.transform s false d.snap).2 = .ok Z₁)
    (h : ¬ Z₁.SameSize d.snap ∨ ∃ Z R₁ R, I.transform s true d.snap = (Z, .ok Z) ∧
      (I.inverse s false Z none).2 = .ok R₁ ∧ I.inverse s true Z none = (R, .ok R) ∧
      (¬ R₁.SameSize d.snap ∨ ¬ R.Near d.snap)) :
    I.verify sqrt s tol d = .error .verification := by
  have hno : ∀ b : Bool, b ≠ true → insist b = .error .verification := by
    intro b hb; cases b
    · rfl
    · exact absurd rfl hb
  have hyes : insist true = .ok () := rfl
  have key : I.verifyInverse s d.snap = .error .verification := by
    unfold TfI.verifyInverse
    simp only [h1, bind, Except.bind, hc.transform, hc.inverse]
    by_cases hs : Z₁.SameSize d.snap
    · obtain ⟨Z, R₁, R, h2, h3, h4, h5⟩ := h.resolve_left (fun hn => hn hs)
      rw [(sameDims_iff _ _).2 hs]
      simp only [hyes, h2, h3, h4, decide_true]
      by_cases hr : R₁.SameSize d.snap
      · rw [(sameDims_iff _ _).2 hr, hno (allClose R d.snap) fun hn => (h5.resolve_left fun hn => hn hr)
          ((allClose_iff _ _).1 hn)]
        rfl
      · rw [hno _ fun hn => hr ((sameDims_iff _ _).1 hn)]
    · rw [hno _ fun hn => hs ((sameDims_iff _ _).1 hn)]
  unfold TfI.verify TfI.verifyWith
  rw [if_neg (by rw [Option.isNone_iff_eq_none]; intro hn; rw [hn] at hdim; cases hdim), key]
  rfl

omit [LinearOrder K] [IsStrictOrderedRing K] in
/-- **C89 (the times).** The finite differences are taken at 20 equispaced times from 0 to 0.1, both included. -/
theorem C89_times [CharZero K] : (verifyTimes (K := K)).length = 20 ∧ (verifyTimes (K := K))[0]? = some 0 ∧
    (verifyTimes (K := K))[19]? = some (1 / 10) ∧
    ∀ i : Nat, i < 19 → (verifyTimes (K := K)).getD (i + 1) 0 - (verifyTimes (K := K)).getD i 0 = 1 / 10 / 19 := by
  refine ⟨by simp [verifyTimes], by simp [verifyTimes], ?_, fun i hi => ?_⟩
  · simp only [verifyTimes, getElem?_map]
    norm_num
  · simp only [verifyTimes, getD_eq_getElem?_getD, getElem?_map]
    rw [getElem?_range (by omega), getElem?_range (by omega)]
    simp only [Option.map_some, Option.getD_some, Nat.cast_add, Nat.cast_one]
    ring

end Exact

/-- A shift whose inverse shifts once more. -/
def shiftTwice : TfI ℚ (Shift ℚ) := { shiftI with inverse := fun s b Y _ => shiftI.transform s b Y }

/-- The hypotheses of `C89_unrecovered_refused` hold for it. -/
example : shiftTwice.Careful ⟨[1, -2, 3, 0, 5], none⟩ ∧ (shiftTwice.dim ⟨[1, -2, 3, 0, 5], none⟩).isSome ∧
    (∃ Z₁, (shiftTwice.transform ⟨[1, -2, 3, 0, 5], none⟩ false drawEx.snap).2 = .ok Z₁ ∧
    ∃ Z R₁ R, shiftTwice.transform ⟨[1, -2, 3, 0, 5], none⟩ true drawEx.snap = (Z, .ok Z) ∧
      (shiftTwice.inverse ⟨[1, -2, 3, 0, 5], none⟩ false Z none).2 = .ok R₁ ∧
      shiftTwice.inverse ⟨[1, -2, 3, 0, 5], none⟩ true Z none = (R, .ok R) ∧ ¬ R.Near drawEx.snap) ∧
    shiftTwice.verify sqrtEx ⟨[1, -2, 3, 0, 5], none⟩ (1 / 10 ^ 4) drawEx = .error .verification := by
  refine ⟨⟨fun _ => onBuffer_keeps _ _, fun _ _ => onBuffer_keeps _ _, fun _ => onBuffer_keeps _ _⟩, rfl,
    ?_, by decide +kernel⟩
  refine ⟨_, rfl, _, _, _, rfl, rfl, rfl, fun hn => ?_⟩
  exact absurd ((allClose_iff _ _).2 hn) (by decide +kernel)

/-- The conditions hold for a shift. -/
example : ∃ Z, (shiftI (K := ℚ)).RoundTrips ⟨[1, -2, 3, 0, 5], none⟩ drawEx.snap Z ∧
    shiftI.RecoversAt ⟨[1, -2, 3, 0, 5], none⟩ drawEx.locs drawEx.snap Z := by
  have h0 : shiftI.verify sqrtEx ⟨[1, -2, 3, 0, 5], none⟩ (1 / 10 ^ 4) drawEx = .ok () :=
    C89_shift (by simp [sqrtEx]) (by decide +kernel) _ drawEx_fits
  have hc : (shiftI (K := ℚ)).Careful ⟨[1, -2, 3, 0, 5], none⟩ :=
    ⟨fun _ => onBuffer_keeps _ _, fun _ _ => onBuffer_keeps _ _, fun _ => onBuffer_keeps _ _⟩
  obtain ⟨-, Z, h1, h2, -⟩ := (C89_accepted_iff (sqrt := sqrtEx)
    (fun x => by unfold sqrtEx; split <;> simp_all) hc).1 h0
  exact ⟨Z, h1, h2⟩

end Opinf
