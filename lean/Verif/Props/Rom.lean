import Verif.Model.Rom
import Verif.Props.Basis
import Verif.Props.Lift
import Verif.Props.TransformInv

/-!
# C47: encoding, decoding, projecting and predicting with a ROM
-/

namespace Opinf

open List

variable {K T B : Type}

/-! ### Specification -/

/-- `L` is `q` after the lifter, if there is one. -/
def LiftedTo : Option (LiftI K) → Snap K → Snap K → Prop
  | none, q, L => L = q
  | some l, q, L => l.lift q = .ok L

/-- `q` is `L` after the inverse of the lifter, if there is one. -/
def UnliftedTo : Option (LiftI K) → Snap K → Snap K → Prop
  | none, L, q => q = L
  | some l, L, q => l.unlift L = .ok q

/-- `X` is `L` after the transformer, if there is one. -/
def TransformedTo : Option (TfI K T × T) → Snap K → Snap K → Prop
  | none, L, X => X = L
  | some (I, t), L, X => (I.transform t false L).2 = .ok X

/-- `L` is `X` after the inverse transformation, if there is a transformer. -/
def InvertedTo : Option (TfI K T × T) → Bool → Snap K → Snap K → Prop
  | none, _, X, L => L = X
  | some (I, t), b, X, L => (I.inverse t b X none).2 = .ok L

/-- `E` is the derivative `d` at the state `q` after the lifter, if there is one. -/
def LiftedDdt : Option (LiftI K) → Snap K → Snap K → Snap K → Prop
  | none, _, d, E => E = d
  | some l, q, d, E => l.liftDdts q d = .ok E

/-- `F` is the derivative `E` after the transformer, if there is one. -/
def TransformedDdt : Option (TfI K T × T) → Snap K → Snap K → Prop
  | none, E, F => F = E
  | some (I, t), E, F => (I.ddts t false E).2 = .ok F

/-- `z` are the coordinates of `X`, if there is a basis. -/
def CompressedTo : Option (BasI K B × B) → Snap K → Snap K → Prop
  | none, X, z => z = X
  | some (I, b), X, z => I.compress b X = .ok z

/-- `X` is the combination with coordinates `z`, if there is a basis. -/
def DecompressedTo : Option (BasI K B × B) → Snap K → Snap K → Prop
  | none, z, X => X = z
  | some (I, b), z, X => I.decompress b z none = .ok X

/-- Unlifting reverses lifting. -/
def LiftI.Undone (l : LiftI K) : Prop := ∀ q L, q.WF → l.lift q = .ok L → l.unlift L = .ok q

/-- States with `n` entries have `r` coordinates, every set of `r` coordinates belongs to a state, and
decompression at selected locations gives the entries at these locations. -/
structure BasI.Reduces [Zero K] (I : BasI K B) (b : B) (n r : Nat) : Prop where
  compress : ∀ Y c, Y.Shaped n c → ∃ Z, Z.Shaped r c ∧ I.compress b Y = .ok Z
  decompress : ∀ Z c, Z.Shaped r c → ∃ Y, Y.Shaped n c ∧ I.decompress b Z none = .ok Y ∧ I.compress b Y = .ok Z
  locs : ∀ Z Y c l, Z.Shaped r c → I.decompress b Z none = .ok Y →
    I.decompress b Z (some l) = (locate n l).map Y.pick

/-- Compression is linear. -/
def BasI.Linear [Field K] (I : BasI K B) (b : B) (n : Nat) : Prop :=
  ∀ Y D c h, Y.Shaped n c → D.Shaped n c → ∃ Z E, I.compress b Y = .ok Z ∧ I.compress b D = .ok E ∧
    I.compress b (Y.axpy h D) = .ok (Z.axpy h E)

/-- The transformer, if there is one, is calibrated for states with `n` entries. -/
def Rom.TfReady (R : Rom K T B) (n : Nat) : Prop := ∀ I t, R.transformer = some (I, t) → I.Invertible t n

/-- The basis, if there is one, maps `n` entries to `r` coordinates; otherwise the two numbers agree. -/
def Rom.BasReady [Zero K] (R : Rom K T B) (n r : Nat) : Prop :=
  (R.basis = none → r = n) ∧ ∀ I b, R.basis = some (I, b) → I.Reduces b n r

/-! ### Order of the steps -/

theorem encode1_eq (R : Rom K T B) (q : Snap K) (z : Snap K) : R.encode1 q = .ok z ↔
    ∃ L X, LiftedTo R.lifter q L ∧ TransformedTo R.transformer L X ∧ CompressedTo R.basis X z := by
  have hlift : ∀ L, LiftedTo R.lifter q L ↔ R.liftStep q none = .ok (L, none) := by
    intro L
    cases hl : R.lifter with
    | none => simp [LiftedTo, Rom.liftStep, hl, eq_comm]
    | some l =>
      simp only [LiftedTo, Rom.liftStep, hl, bind, Except.bind, pure, Except.pure]
      cases l.lift q <;> simp
  have hpair : ∀ p, R.liftStep q none = .ok p → p.2 = none := by
    intro p
    cases hl : R.lifter with
    | none => simp only [Rom.liftStep, hl, Except.ok.injEq]; rintro rfl; rfl
    | some l =>
      simp only [Rom.liftStep, hl, bind, Except.bind, pure, Except.pure]
      cases l.lift q with
      | error e => simp
      | ok L => simp only [Except.ok.injEq]; rintro rfl; rfl
  simp only [hlift, Rom.encode1, Rom.encode]
  cases hL : R.liftStep q none with
  | error e => simp [Except.map]
  | ok p =>
    obtain ⟨L, o⟩ := p
    have : o = none := hpair _ hL
    subst this
    have hcomp : ∀ (R' : Rom K T B) X, R'.basis = R.basis →
        ((R'.basisStep false X none).2.map Prod.fst = .ok z ↔ CompressedTo R.basis X z) := by
      intro R' X hb
      cases hB : R.basis with
      | none => simp [CompressedTo, Rom.basisStep, hb, hB, Except.map, eq_comm]
      | some Ib =>
        obtain ⟨I, b⟩ := Ib
        simp only [CompressedTo, Rom.basisStep, hb, hB, Bool.false_eq_true, if_false, compressBoth]
        cases I.compress b X <;> simp [Except.map]
    simp only [Except.ok.injEq, Prod.mk.injEq, and_true, exists_and_left, exists_eq_left']
    cases hT : R.transformer with
    | none =>
      simp only [Rom.tfStep, hT, TransformedTo, exists_eq_left]
      exact hcomp R L rfl
    | some It =>
      obtain ⟨I, t⟩ := It
      simp only [Rom.tfStep, hT, TransformedTo, tfStates, Bool.false_eq_true, if_false]
      rcases h : I.transform t false L with ⟨L', e | X⟩
      · simp [Except.map, h]
      · simp only [h, Except.ok.injEq, exists_eq_left']
        exact hcomp _ X rfl

/-- C47: `encode` lifts, then transforms, then compresses, skipping the parts that are absent; it succeeds exactly
if all these steps do. -/
theorem C47_encode (R : Rom K T B) (q z : Snap K) : R.encode1 q = .ok z ↔
    ∃ L X, LiftedTo R.lifter q L ∧ TransformedTo R.transformer L X ∧ CompressedTo R.basis X z := encode1_eq R q z

/-- C47: `decode` decompresses, then inverts the transformation, then unlifts. -/
theorem C47_decode (R : Rom K T B) (z q : Snap K) : (R.decode z none).2 = .ok q ↔
    ∃ X L, DecompressedTo R.basis z X ∧ InvertedTo R.transformer R.basis.isSome X L ∧ UnliftedTo R.lifter L q := by
  have hun : ∀ L, R.unliftStep L = .ok q ↔ UnliftedTo R.lifter L q := by
    intro L
    cases hl : R.lifter with
    | none => simp [UnliftedTo, Rom.unliftStep, hl, eq_comm]
    | some l => simp [UnliftedTo, Rom.unliftStep, hl]
  have hinv : ∀ b X, (R.invStep b X none).2 >>= R.unliftStep = .ok q ↔
      ∃ L, InvertedTo R.transformer b X L ∧ UnliftedTo R.lifter L q := by
    intro b X
    cases hT : R.transformer with
    | none => simp [Rom.invStep, hT, InvertedTo, bind, Except.bind, hun]
    | some It =>
      obtain ⟨I, t⟩ := It
      simp only [Rom.invStep, hT, InvertedTo, bind, Except.bind]
      cases (I.inverse t b X none).2 <;> simp [hun]
  cases hB : R.basis with
  | none =>
    simp only [Rom.decode, hB, DecompressedTo, Option.isSome_none]
    rw [hinv]
    simp
  | some Ib =>
    obtain ⟨I, b⟩ := Ib
    simp only [Rom.decode, hB, DecompressedTo, Option.isSome_some]
    cases I.decompress b z none with
    | error e => simp
    | ok X =>
      simp only [Except.ok.injEq, exists_and_left, exists_eq_left']
      exact hinv true X

/-- C47: `predict(q0)` is `decode(model.predict(encode(q0)))`. -/
theorem C47_predict (R : Rom K T B) (f : Snap K → Except Err (Snap K)) (q p : Snap K) :
    R.predict f q = .ok p ↔ ∃ z zs, R.encode1 q = .ok z ∧ f z = .ok zs ∧ (R.decode zs none).2 = .ok p := by
  simp only [Rom.predict, bind, Except.bind]
  cases R.encode1 q with
  | error e => simp
  | ok z =>
    cases hf : f z with
    | error e => simp [hf]
    | ok zs => simp [hf]

/-- C47: `project` is `decode` after `encode`. -/
theorem C47_project (R : Rom K T B) (q p : Snap K) :
    R.project q = .ok p ↔ ∃ z, R.encode1 q = .ok z ∧ (R.decode z none).2 = .ok p := by
  simp only [Rom.project, bind, Except.bind]
  cases R.encode1 q <;> simp

/-! ### Round trips -/

theorem inverted_of_transformed {R : Rom K T B} {n : Nat} (hT : R.TfReady n) {L X : Snap K} {c : Option Nat}
    (hL : L.Shaped n c) (h : TransformedTo R.transformer L X) :
    X.Shaped n c ∧ ∀ b, InvertedTo R.transformer b X L := by
  cases hR : R.transformer with
  | none =>
    rw [hR] at h
    cases h
    exact ⟨hL, fun _ => rfl⟩
  | some It =>
    obtain ⟨I, t⟩ := It
    rw [hR] at h
    obtain ⟨Z, h1, h2, h3⟩ := (hT I t hR).forth L c hL
    have : X = Z := by
      have := h2 false
      simp only [TransformedTo, this, yields, Except.ok.injEq] at h
      exact h.symm
    subst this
    refine ⟨h1, fun b => ?_⟩
    simp [InvertedTo, h3 b, yields]

theorem transformed_of_inverted {R : Rom K T B} {n : Nat} (hT : R.TfReady n) {X : Snap K} {c : Option Nat}
    (hX : X.Shaped n c) : ∃ L, L.Shaped n c ∧ (∀ b, InvertedTo R.transformer b X L) ∧
      TransformedTo R.transformer L X := by
  cases hR : R.transformer with
  | none => exact ⟨X, hX, fun _ => rfl, rfl⟩
  | some It =>
    obtain ⟨I, t⟩ := It
    obtain ⟨L, h1, h2, h3⟩ := (hT I t hR).back X c hX
    exact ⟨L, h1, fun b => by simp [InvertedTo, h2 b, yields], by simp [TransformedTo, h3 false, yields]⟩

theorem unlifted_of_lifted {o : Option (LiftI K)} (h : ∀ l, o = some l → l.Undone) {q L : Snap K} (hq : q.WF)
    (hl : LiftedTo o q L) : UnliftedTo o L q := by
  cases o with
  | none => cases hl; rfl
  | some l => exact h l rfl q L hq hl

/-- C47: without a basis, `decode` reverses `encode`. -/
theorem C47_decode_encode (R : Rom K T B) (n : Nat) (hl : ∀ l, R.lifter = some l → l.Undone) (hT : R.TfReady n)
    (hB : R.basis = none) (q L z : Snap K) (c : Option Nat) (hq : q.WF) (hL : LiftedTo R.lifter q L)
    (hs : L.Shaped n c) (h : R.encode1 q = .ok z) : (R.decode z none).2 = .ok q := by
  obtain ⟨L', X, h1, h2, h3⟩ := (C47_encode R q z).1 h
  have : L' = L := by
    cases hR : R.lifter with
    | none => rw [hR] at h1 hL; cases h1; cases hL; rfl
    | some l =>
      rw [hR] at h1 hL
      simp only [LiftedTo] at h1 hL
      rw [h1] at hL
      exact Except.ok.inj hL
  subst this
  rw [hB] at h3
  cases h3
  refine (C47_decode R z q).2 ⟨z, L', by rw [hB]; rfl, (inverted_of_transformed hT hs h2).2 _,
    unlifted_of_lifted hl hq hL⟩

/-- C47: with a basis, `decode` reverses `encode` on the states whose transformed version the basis reproduces. -/
theorem C47_decode_encode_in_span (R : Rom K T B) (n : Nat) (hl : ∀ l, R.lifter = some l → l.Undone)
    (hT : R.TfReady n) (q L X z : Snap K) (c : Option Nat) (hq : q.WF) (hL : LiftedTo R.lifter q L)
    (hs : L.Shaped n c) (hX : TransformedTo R.transformer L X) (hz : CompressedTo R.basis X z)
    (hspan : DecompressedTo R.basis z X) : R.encode1 q = .ok z ∧ (R.decode z none).2 = .ok q :=
  ⟨(C47_encode R q z).2 ⟨L, X, hL, hX, hz⟩, (C47_decode R z q).2 ⟨X, L, hspan,
    (inverted_of_transformed hT hs hX).2 _, unlifted_of_lifted hl hq hL⟩⟩

/-- C47: without a lifter, `encode` reverses `decode` on all coordinates. -/
theorem C47_encode_decode [Zero K] (R : Rom K T B) (n r : Nat) (hl : R.lifter = none) (hT : R.TfReady n)
    (hB : R.BasReady n r) (z : Snap K) (c : Option Nat) (hz : z.Shaped r c) :
    ∃ q, q.Shaped n c ∧ (R.decode z none).2 = .ok q ∧ R.encode1 q = .ok z := by
  have hX : ∃ X, X.Shaped n c ∧ DecompressedTo R.basis z X ∧ CompressedTo R.basis X z := by
    cases hb : R.basis with
    | none => exact ⟨z, by rw [← hB.1 hb]; exact hz, rfl, rfl⟩
    | some Ib => exact (hB.2 Ib.1 Ib.2 (by rw [hb])).decompress z c hz
  obtain ⟨X, x1, x2, x3⟩ := hX
  obtain ⟨q, q1, q2, q3⟩ := transformed_of_inverted hT x1
  exact ⟨q, q1, (C47_decode R z q).2 ⟨X, q, x2, q2 _, by rw [hl]; rfl⟩,
    (C47_encode R q z).2 ⟨q, X, by rw [hl]; rfl, q3, x3⟩⟩

/-- C47: without a lifter, every state with `n` entries is encoded to `r` coordinates. -/
theorem C47_encode_defined [Zero K] (R : Rom K T B) (n r : Nat) (hl : R.lifter = none) (hT : R.TfReady n)
    (hB : R.BasReady n r) (q : Snap K) (c : Option Nat) (hq : q.Shaped n c) :
    ∃ z, z.Shaped r c ∧ R.encode1 q = .ok z := by
  have hX : ∃ X, X.Shaped n c ∧ TransformedTo R.transformer q X := by
    cases hR : R.transformer with
    | none => exact ⟨q, hq, rfl⟩
    | some It =>
      obtain ⟨Z, h1, h2, -⟩ := (hT It.1 It.2 (by rw [hR])).forth q c hq
      exact ⟨Z, h1, by simp [TransformedTo, h2 false, yields]⟩
  obtain ⟨X, x1, x2⟩ := hX
  have hz : ∃ z, z.Shaped r c ∧ CompressedTo R.basis X z := by
    cases hb : R.basis with
    | none => exact ⟨X, by rw [hB.1 hb]; exact x1, rfl⟩
    | some Ib => exact (hB.2 Ib.1 Ib.2 (by rw [hb])).compress X c x1
  obtain ⟨z, z1, z2⟩ := hz
  exact ⟨z, z1, (C47_encode R q z).2 ⟨q, X, by rw [hl]; rfl, x2, z2⟩⟩

/-- C47: without a lifter, `project` is idempotent. Missing from the full claim: ROMs with a lifter, for which it is
false (`C47_project_lifter_witness`). -/
theorem C47_project_idempotent_partial [Zero K] (R : Rom K T B) (n r : Nat) (hl : R.lifter = none) (hT : R.TfReady n)
    (hB : R.BasReady n r) (q : Snap K) (c : Option Nat) (hq : q.Shaped n c) :
    ∃ p, p.Shaped n c ∧ R.project q = .ok p ∧ R.project p = .ok p := by
  obtain ⟨z, z1, z2⟩ := C47_encode_defined R n r hl hT hB q c hq
  obtain ⟨p, p1, p2, p3⟩ := C47_encode_decode R n r hl hT hB z c z1
  exact ⟨p, p1, (C47_project R q p).2 ⟨z, z2, p2⟩, (C47_project R p p).2 ⟨z, p3, p2⟩⟩

/-- C47: if the model is consistent with the data in coordinates, the ROM's prediction reproduces the data: a
trajectory whose transformed version lies in the span of the basis and whose coordinates the model predicts. -/
theorem C47_predict_exact (R : Rom K T B) (n : Nat) (hl : ∀ l, R.lifter = some l → l.Undone) (hT : R.TfReady n)
    (f : Snap K → Except Err (Snap K)) (q0 z0 Q L X Z : Snap K) (c : Option Nat) (hQ : Q.WF)
    (h0 : R.encode1 q0 = .ok z0) (hL : LiftedTo R.lifter Q L) (hs : L.Shaped n c)
    (hX : TransformedTo R.transformer L X) (hz : CompressedTo R.basis X Z) (hspan : DecompressedTo R.basis Z X)
    (hf : f z0 = .ok Z) : R.predict f q0 = .ok Q :=
  (C47_predict R f q0 Q).2 ⟨z0, Z, h0, hf, (C47_decode_encode_in_span R n hl hT Q L X Z c hQ hL hs hX hz hspan).2⟩

/-! ### Selected locations -/

/-- C47: with a basis and without a lifter, `decode(z, locs)` gives the entries of `decode(z)` at these locations.
Missing from the full claim: ROMs with a lifter or without a basis, for which it is false
(`C47_locs_lifter_witness`, `C47_locs_ignored`, `C47_locs_no_basis_witness`). -/
theorem C47_decode_locs_partial [Zero K] (R : Rom K T B) (n r : Nat) (hl : R.lifter = none) (hT : R.TfReady n)
    (hAt : ∀ I t, R.transformer = some (I, t) → I.InvertibleAt t n) (hB : R.BasReady n r) (hb : R.basis.isSome)
    (z : Snap K) (c : Option Nat) (hz : z.Shaped r c) (l : Locs) (ix : List Nat) (hix : locate n l = .ok ix) :
    ∃ q, q.Shaped n c ∧ (R.decode z none).2 = .ok q ∧ (R.decode z (some l)).2 = .ok (q.pick ix) := by
  obtain ⟨⟨I, b⟩, hR⟩ := Option.isSome_iff_exists.1 hb
  have hsec := hB.2 I b hR
  obtain ⟨X, x1, x2, x3⟩ := hsec.decompress z c hz
  have hloc := hsec.locs z X c l hz x2
  rw [hix] at hloc
  obtain ⟨q, q1, q2, q3⟩ := transformed_of_inverted hT x1
  refine ⟨q, q1, (C47_decode R z q).2 ⟨X, q, by rw [hR]; exact x2, q2 _, by rw [hl]; rfl⟩, ?_⟩
  simp only [Rom.decode, hR, hloc, Except.map, Rom.invStep]
  cases ht : R.transformer with
  | none =>
    rw [ht] at q3
    cases q3
    simp [Rom.unliftStep, hl, bind, Except.bind]
  | some It =>
    obtain ⟨J, t⟩ := It
    rw [ht] at q3
    obtain ⟨Z, h1, h2, -⟩ := (hT J t ht).forth q c q1
    have : Z = X := by
      simp only [TransformedTo, h2 false, yields, Except.ok.injEq] at q3
      exact q3
    subst this
    simp [hAt J t ht q Z c l ix q1 x1 hix (h2 false) true, yields, Rom.unliftStep, hl, bind, Except.bind]

/-- C47: a ROM without basis and transformer ignores `locs`. -/
theorem C47_locs_ignored (R : Rom K T B) (hT : R.transformer = none) (hB : R.basis = none) (z : Snap K)
    (locs : Option Locs) : R.decode z locs = R.decode z none := by
  simp only [Rom.decode, hB, Rom.invStep, hT]

/-! ### Arguments and left-hand sides -/

/-- C47: `decode` never changes its argument. -/
theorem C47_decode_argument (R : Rom K T B)
    (h : ∀ I t, R.transformer = some (I, t) → ∀ Y l, (I.inverse t false Y l).1 = Y) (z : Snap K)
    (locs : Option Locs) : (R.decode z locs).1 = z := by
  cases hB : R.basis with
  | none =>
    simp only [Rom.decode, hB, Rom.invStep]
    cases ht : R.transformer with
    | none => rfl
    | some It => exact h It.1 It.2 (by rw [ht]) z locs
  | some Ib =>
    simp only [Rom.decode, hB]
    split <;> rfl

/-- C47: `encode` changes its arguments only if asked to work in place, and never if there is a lifter. -/
theorem C47_encode_arguments (R : Rom K T B)
    (h : ∀ I t, R.transformer = some (I, t) → ∀ t' Y, (I.transform t' false Y).1 = Y ∧ (I.ddts t' false Y).1 = Y ∧
      (I.fitTransform t' false Y).2.1 = Y)
    (q : Snap K) (lhs : Option (Snap K)) (inplace fitT fitB : Bool) (hi : inplace = false ∨ R.lifter.isSome) :
    (R.encode q lhs inplace fitT fitB).states = q ∧ (R.encode q lhs inplace fitT fitB).lhs = lhs := by
  simp only [Rom.encode]
  cases hL : R.liftStep q lhs with
  | error e => exact ⟨rfl, rfl⟩
  | ok p =>
    obtain ⟨Y, Z⟩ := p
    have key : (if R.lifter.isSome then q else (R.tfStep inplace fitT Y Z).states) = q ∧
        (if R.lifter.isSome then lhs else (R.tfStep inplace fitT Y Z).lhs) = lhs := by
      rcases hi with hi | hi
      · subst hi
        cases hl : R.lifter with
        | some l => simp
        | none =>
          simp only [Rom.liftStep, hl, Except.ok.injEq, Prod.mk.injEq] at hL
          obtain ⟨rfl, rfl⟩ := hL
          simp only [Option.isSome_none, Bool.false_eq_true, if_false]
          simp only [Rom.tfStep]
          cases ht : R.transformer with
          | none => exact ⟨rfl, rfl⟩
          | some It =>
            obtain ⟨I, t⟩ := It
            have hI := h I t ht
            have hs : (tfStates I t false fitT q).2.1 = q := by
              cases fitT
              · exact (hI t q).1
              · exact (hI t q).2.2
            have hz : ∀ t' z, (tfLhs I t' false R.continuous z).1 = z := by
              intro t' z
              simp only [tfLhs]
              split
              · exact (hI t' z).2.1
              · exact (hI t' z).1
            simp only
            rcases htf : tfStates I t false fitT q with ⟨t', s', o⟩
            rw [htf] at hs
            simp only at hs
            subst hs
            cases o with
            | error e => exact ⟨rfl, rfl⟩
            | ok Y =>
              cases lhs with
              | none => exact ⟨rfl, rfl⟩
              | some z =>
                have := hz t' z
                simp only
                rcases htl : tfLhs I t' false R.continuous z with ⟨z', o⟩
                rw [htl] at this
                simp only at this
                subst this
                cases o <;> exact ⟨rfl, rfl⟩
      · simp [hi]
    simp only
    split <;> exact key

/-- C47: for a fully discrete model the left-hand side (the next states) is encoded like states. -/
theorem C47_lhs_discrete (R : Rom K T B) (hd : R.continuous = false) (q z a b : Snap K) :
    (R.encode q (some z) false false false).out = .ok (a, some b) ↔ R.encode1 q = .ok a ∧ R.encode1 z = .ok b := by
  simp only [Rom.encode1, Rom.encode]
  have hls : R.liftStep q (some z) = (R.liftStep z none).bind fun Z => (R.liftStep q none).bind fun Y =>
      .ok (Y.1, some Z.1) := by
    cases hl : R.lifter with
    | none => simp [Rom.liftStep, hl, Except.bind]
    | some l =>
      simp only [Rom.liftStep, hl, hd, bind, Except.bind, pure, Except.pure, Bool.false_eq_true, if_false]
      cases l.lift z with
      | error e => rfl
      | ok Z => cases l.lift q <;> rfl
  have hpair : ∀ q p, R.liftStep q none = .ok p → p.2 = none := by
    intro q p
    cases hl : R.lifter with
    | none => simp only [Rom.liftStep, hl, Except.ok.injEq]; rintro rfl; rfl
    | some l =>
      simp only [Rom.liftStep, hl, bind, Except.bind, pure, Except.pure]
      cases l.lift q with
      | error e => simp
      | ok L => simp only [Except.ok.injEq]; rintro rfl; rfl
  have hbas : ∀ (R' : Rom K T B) (X Y : Snap K), R'.basis = R.basis →
      ((R'.basisStep false X (some Y)).2 = .ok (a, some b) ↔
        (R'.basisStep false X none).2.map Prod.fst = .ok a ∧ (R'.basisStep false Y none).2.map Prod.fst = .ok b) := by
    intro R' X Y hb
    cases hB : R.basis with
    | none => simp [Rom.basisStep, hb, hB, Except.map]
    | some Ib =>
      obtain ⟨I, β⟩ := Ib
      simp only [Rom.basisStep, hb, hB, Bool.false_eq_true, if_false, compressBoth]
      cases I.compress β X <;> cases I.compress β Y <;> simp [Except.map]
  rw [hls]
  cases hz : R.liftStep z none with
  | error e =>
    simp only [Except.bind, Except.map]
    constructor
    · intro h; cases h
    · rintro ⟨_, h⟩; cases h
  | ok Z =>
    obtain ⟨Z, o⟩ := Z
    have : o = none := hpair _ _ hz
    subst this
    cases hq : R.liftStep q none with
    | error e =>
      simp only [Except.bind, Except.map]
      constructor
      · intro h; cases h
      · rintro ⟨h, _⟩; cases h
    | ok Y =>
      obtain ⟨Y, o⟩ := Y
      have : o = none := hpair _ _ hq
      subst this
      simp only [Except.bind, Rom.tfStep]
      cases hT : R.transformer with
      | none => exact hbas R Y Z rfl
      | some It =>
        obtain ⟨I, t⟩ := It
        simp only [tfStates, tfLhs, hd, Bool.false_eq_true, if_false]
        rcases hY : I.transform t false Y with ⟨Y', e | Y1⟩
        · simp [Except.map]
        · rcases hZ : I.transform t false Z with ⟨Z', e | Z1⟩
          · simp only [hZ, Except.map]
            constructor
            · intro h; cases h
            · rintro ⟨_, h⟩; cases h
          · simp only [hZ]
            exact hbas _ Y1 Z1 rfl

/-- C47: for a time-continuous model the left-hand side is lifted by `lift_ddts` at the original states, transformed
by `transform_ddts` and compressed. -/
theorem C47_encode_ddts (R : Rom K T B) (hc : R.continuous = true) (q d a e : Snap K) :
    (R.encode q (some d) false false false).out = .ok (a, some e) ↔ ∃ L E X F,
      (LiftedTo R.lifter q L ∧ TransformedTo R.transformer L X ∧ CompressedTo R.basis X a) ∧
      LiftedDdt R.lifter q d E ∧ TransformedDdt R.transformer E F ∧ CompressedTo R.basis F e := by
  have hbas : ∀ (R' : Rom K T B) (X F : Snap K), R'.basis = R.basis →
      ((R'.basisStep false X (some F)).2 = .ok (a, some e) ↔ CompressedTo R.basis X a ∧ CompressedTo R.basis F e) := by
    intro R' X F hb
    cases hB : R.basis with
    | none => simp [Rom.basisStep, hb, hB, CompressedTo, eq_comm]
    | some Ib =>
      obtain ⟨I, β⟩ := Ib
      simp only [Rom.basisStep, hb, hB, Bool.false_eq_true, if_false, compressBoth, CompressedTo]
      cases I.compress β X <;> cases I.compress β F <;> simp [Except.map]
  have htf : ∀ L E, (match (R.tfStep false false L (some E)).out with
      | .error er => (.error er : Except Err (Snap K × Option (Snap K)))
      | .ok (Y, Z) => ((R.tfStep false false L (some E)).rom.basisStep false Y Z).2) = .ok (a, some e) ↔
      ∃ X F, TransformedTo R.transformer L X ∧ TransformedDdt R.transformer E F ∧ CompressedTo R.basis X a ∧
        CompressedTo R.basis F e := by
    intro L E
    cases hT : R.transformer with
    | none =>
      simp only [Rom.tfStep, hT, TransformedTo, TransformedDdt]
      rw [hbas R L E rfl]
      constructor
      · rintro ⟨h1, h2⟩; exact ⟨L, E, rfl, rfl, h1, h2⟩
      · rintro ⟨X, F, rfl, rfl, h1, h2⟩; exact ⟨h1, h2⟩
    | some It =>
      obtain ⟨I, t⟩ := It
      simp only [Rom.tfStep, hT, TransformedTo, TransformedDdt, tfStates, tfLhs, hc, Bool.false_eq_true, if_false, if_true]
      rcases hY : I.transform t false L with ⟨Y', e' | Y1⟩
      · simp
      · rcases hZ : I.ddts t false E with ⟨Z', e' | Z1⟩
        · simp [hZ]
        · simp only [hZ]
          rw [hbas ⟨R.lifter, some (I, t), R.basis, true⟩ Y1 Z1 rfl]
          simp
  have houtr : (R.encode q (some d) false false false).out = match R.liftStep q (some d) with
      | .error er => .error er
      | .ok (Y, Z) => match (R.tfStep false false Y Z).out with
        | .error er => .error er
        | .ok (Y', Z') => ((R.tfStep false false Y Z).rom.basisStep false Y' Z').2 := by
    simp only [Rom.encode]
    cases R.liftStep q (some d) with
    | error er => rfl
    | ok p =>
      obtain ⟨Y, Z⟩ := p
      simp only
      cases (R.tfStep false false Y Z).out <;> rfl
  rw [houtr]
  cases hl : R.lifter with
  | none =>
    simp only [Rom.liftStep, hl, LiftedTo, LiftedDdt]
    rw [htf]
    constructor
    · rintro ⟨X, F, h1, h2, h3, h4⟩; exact ⟨q, d, X, F, ⟨rfl, h1, h3⟩, rfl, h2, h4⟩
    · rintro ⟨L, E, X, F, ⟨rfl, h1, h3⟩, rfl, h2, h4⟩; exact ⟨X, F, h1, h2, h3, h4⟩
  | some l =>
    simp only [Rom.liftStep, hl, hc, LiftedTo, LiftedDdt, if_true, bind, Except.bind, pure, Except.pure]
    cases hE : l.liftDdts q d with
    | error er => simp
    | ok E =>
      cases hL : l.lift q with
      | error er => simp
      | ok L =>
        simp only
        rw [htf]
        constructor
        · rintro ⟨X, F, h1, h2, h3, h4⟩; exact ⟨L, E, X, F, ⟨rfl, h1, h3⟩, rfl, h2, h4⟩
        · rintro ⟨L', E', X, F, ⟨h5, h1, h3⟩, h6, h2, h4⟩
          cases h5
          cases h6
          exact ⟨X, F, h1, h2, h3, h4⟩

/-- C47: for a time-continuous model without a lifter the left-hand side is encoded as the derivative: moving the
state by `h` times the left-hand side moves the encoded state by `h` times the encoded left-hand side. -/
theorem C47_lhs_continuous [Field K] (R : Rom K T B) (n : Nat) (hl : R.lifter = none) (hc : R.continuous = true)
    (hT : ∀ I t, R.transformer = some (I, t) → I.Differentiates t n)
    (hB : ∀ I b, R.basis = some (I, b) → I.Linear b n) (q d : Snap K) (c : Option Nat) (hq : q.Shaped n c)
    (hd : d.Shaped n c) (h : K) : ∃ a e, (R.encode q (some d) false false false).out = .ok (a, some e) ∧
      R.encode1 q = .ok a ∧ R.encode1 (q.axpy h d) = .ok (a.axpy h e) := by
  have hbas : ∀ (R' : Rom K T B) (X E : Snap K), R'.basis = R.basis → X.Shaped n c → E.Shaped n c → ∃ a e,
      (R'.basisStep false X (some E)).2 = .ok (a, some e) ∧ CompressedTo R.basis X a ∧
        CompressedTo R.basis (X.axpy h E) (a.axpy h e) := by
    intro R' X E hb hX hE
    cases hR : R.basis with
    | none => exact ⟨X, E, by simp [Rom.basisStep, hb, hR], rfl, rfl⟩
    | some Ib =>
      obtain ⟨I, b⟩ := Ib
      obtain ⟨a, e, h1, h2, h3⟩ := hB I b hR X E c h hX hE
      exact ⟨a, e, by simp [Rom.basisStep, hb, hR, compressBoth, h1, h2, Except.map], h1, h3⟩
  simp only [C47_encode, hl, LiftedTo, Rom.encode, Rom.liftStep]
  cases ht : R.transformer with
  | none =>
    obtain ⟨a, e, h1, h2, h3⟩ := hbas R q d rfl hq hd
    refine ⟨a, e, ?_, ⟨q, q, rfl, rfl, h2⟩, ⟨_, _, rfl, rfl, h3⟩⟩
    simp only [Rom.tfStep, ht, h1]
  | some It =>
    obtain ⟨I, t⟩ := It
    obtain ⟨X, E, hX, hE, e1, e2, e3⟩ := hT I t ht q d c h hq hd
    obtain ⟨a, e, h1, h2, h3⟩ := hbas { R with transformer := some (I, t) } X E rfl hX hE
    refine ⟨a, e, ?_, ⟨q, X, rfl, by simp [TransformedTo, e1 false, yields], h2⟩,
      ⟨_, X.axpy h E, rfl, by simp [TransformedTo, e3 false, yields], h3⟩⟩
    rw [hc] at h1
    simp only [Rom.tfStep, ht, tfStates, tfLhs, hc, Bool.false_eq_true, if_false, if_true, e1 false, e2 false, yields]
    exact h1

/-- C47: encoding with `fit_transformer=True` and `fit_basis=True` gives what encoding the same states afterwards
gives. -/
theorem C47_fit_encode (R : Rom K T B) (hT : ∀ I t, R.transformer = some (I, t) → I.FitsThenTransforms t) (q z : Snap K)
    (inplace : Bool) (L : Snap K) (n : Nat) (c : Option Nat) (hL : LiftedTo R.lifter q L) (hs : L.Shaped n c)
    (h : (R.encode q none inplace true true).out = .ok (z, none)) :
    (R.encode q none inplace true true).rom.encode1 q = .ok z := by
  have hlift : R.liftStep q none = .ok (L, none) := by
    cases hl : R.lifter with
    | none => rw [hl] at hL; cases hL; simp [Rom.liftStep, hl]
    | some l =>
      rw [hl] at hL
      simp only [LiftedTo] at hL
      simp [Rom.liftStep, hl, hL, bind, Except.bind, pure, Except.pure]
  have hbas : ∀ (R' : Rom K T B) (X : Snap K), (R'.basisStep true X none).2 = .ok (z, none) →
      (R'.basisStep true X none).1.lifter = R'.lifter ∧ (R'.basisStep true X none).1.transformer = R'.transformer ∧
        CompressedTo (R'.basisStep true X none).1.basis X z := by
    intro R' X hx
    cases hB : R'.basis with
    | none =>
      simp only [Rom.basisStep, hB, Except.ok.injEq, Prod.mk.injEq, and_true] at hx ⊢
      subst hx
      exact ⟨trivial, trivial, rfl⟩
    | some Ib =>
      obtain ⟨I, b⟩ := Ib
      simp only [Rom.basisStep, hB, if_true] at hx ⊢
      rcases hf : I.fit b X with ⟨b', _ | u⟩
      · rw [hf] at hx; cases hx
      · rw [hf] at hx
        simp only [compressBoth] at hx ⊢
        refine ⟨trivial, trivial, ?_⟩
        simp only [CompressedTo]
        cases hc : I.compress b' X with
        | error e => rw [hc] at hx; cases hx
        | ok Y => rw [hc] at hx; simp only [Except.ok.injEq, Prod.mk.injEq, and_true] at hx; rw [hx]
  rw [C47_encode]
  simp only [Rom.encode, hlift] at h ⊢
  cases ht : R.transformer with
  | none =>
    simp only [Rom.tfStep, ht] at h ⊢
    obtain ⟨b1, b2, b3⟩ := hbas _ _ h
    exact ⟨L, L, by rw [b1]; exact hL, by rw [b2, ht]; rfl, b3⟩
  | some It =>
    obtain ⟨I, t⟩ := It
    simp only [Rom.tfStep, ht, tfStates, if_true] at h ⊢
    rcases hf : I.fitTransform t inplace L with ⟨t', L', _ | X⟩
    · rw [hf] at h; cases h
    · rw [hf] at h
      simp only at h ⊢
      obtain ⟨-, -, -, -, f5⟩ := hT I t ht L n c inplace t' L' X hs hf
      obtain ⟨b1, b2, b3⟩ := hbas _ _ h
      exact ⟨L, X, by rw [b1]; exact hL, by rw [b2]; simp [TransformedTo, f5 false, yields], b3⟩

/-! ### The parts of the package meet the requirements -/

theorem axpy_eq_vadd [Field K] (h : K) (a b : List K) : zipWith (fun x d => x + h * d) a b = vadd a (vsmul h b) := by
  simp [vadd, vsmul, zipWith_map_right]

theorem column_axpy [Field K] (h : K) {Y D : Snap K} {n : Nat} {c : Option Nat} (hY : Y.Shaped n c)
    (hD : D.Shaped n c) (j : Nat) (hj : j < Y.width) :
    (Y.axpy h D).column j = vadd (Y.column j) (vsmul h (D.column j)) := by
  cases Y with
  | vec xs =>
    cases D with
    | vec ds => simp only [Snap.axpy, Snap.column, axpy_eq_vadd]
    | mat k ds => exact absurd (hD.cols.trans hY.cols.symm) (by simp [Snap.cols])
  | mat k rows =>
    cases D with
    | vec ds => exact absurd (hD.cols.trans hY.cols.symm) (by simp [Snap.cols])
    | mat l ds =>
      have hkl : l = k := by simpa [Snap.cols] using hD.cols.trans hY.cols.symm
      subst hkl
      have hlen : rows.length = ds.length := by
        have := hY.len.trans hD.len.symm
        simpa [Snap.len] using this
      have hw : j < l := by simpa [Snap.width] using hj
      apply ext_getElem
      · simp [Snap.axpy, Snap.column, vadd, vsmul]
      · intro i h1 h2
        have hi : i < rows.length := by
          simp [Snap.axpy, Snap.column] at h1
          omega
        have hr : rows[i].length = l := hY.wf _ (getElem_mem hi)
        have hd : (ds[i]'(hlen ▸ hi)).length = l := hD.wf _ (getElem_mem _)
        simp only [Snap.axpy, Snap.column, vadd, vsmul, getElem_map, getElem_zipWith, getD_eq_getElem?_getD]
        rw [getElem?_eq_getElem (by simp [hr, hd, hw]), getElem?_eq_getElem (by simp [hr, hw]),
          getElem?_eq_getElem (by simp [hd, hw])]
        simp

theorem wvec_axpy [Field K] {W : Option (Weights K)} (h : K) (a b : List K) (hl : a.length = b.length) :
    wvec W (vadd a (vsmul h b)) = vadd (wvec W a) (vsmul h (wvec W b)) := by
  match W with
  | none => rfl
  | some (.diag w) =>
    simp only [wvec]
    clear hl
    induction w generalizing a b with
    | nil => simp [vadd, vsmul]
    | cons x w ih =>
      cases a with
      | nil => simp [vadd]
      | cons y a =>
        cases b with
        | nil => simp [vadd, vsmul]
        | cons z b =>
          have := ih a b
          simp only [vadd, vsmul, map_cons, zipWith_cons_cons] at this ⊢
          rw [this]
          congr 1
          ring
  | some (.full A) =>
    simp only [wvec]
    rw [matVec_vadd _ _ _ (by simp [vsmul, hl]), matVec_vsmul]

/-- A linear basis with orthonormal columns (with respect to its weights) meets the requirements. -/
theorem C47_linear_basis [Field K] (b : LinB K) (V : Cols K) (hb : b.Has V) (ho : Orthonormal V b.weights) :
    linI.Reduces b V.n V.cols.length ∧ linI.Linear b V.n := by
  refine ⟨⟨?_, ?_, ?_⟩, ?_⟩
  · intro Y c hY
    obtain ⟨Z, h1, h2, -⟩ := compress_ok hb hY
    exact ⟨Z, h2, h1⟩
  · exact fun Z c hZ => C42_compress_decompress b V hb ho Z c hZ
  · exact fun Z Y c l hZ h => C42_decompress_locs b V hb Z Y c hZ h l
  · intro Y D c h hY hD
    obtain ⟨Z, y1, y2, y3⟩ := compress_ok hb hY
    obtain ⟨E, d1, d2, d3⟩ := compress_ok hb hD
    have hA := Snap.Shaped.axpy h hY hD
    obtain ⟨A, a1, a2, a3⟩ := compress_ok hb hA
    refine ⟨Z, E, y1, d1, ?_⟩
    have wYD : D.width = Y.width := Snap.width_of_cols (hD.cols.trans hY.cols.symm)
    have wAY : (Y.axpy h D).width = Y.width := Snap.width_of_cols (hA.cols.trans hY.cols.symm)
    have wZY : Z.width = Y.width := Snap.width_of_cols (y2.cols.trans hY.cols.symm)
    have wA : A.width = Y.width := Snap.width_of_cols (a2.cols.trans hY.cols.symm)
    rw [show linI.compress b (Y.axpy h D) = .ok A from a1]
    congr 1
    apply snap_ext a2 (Snap.Shaped.axpy h y2 d2)
    intro j hj
    have hlYD : (Y.column j).length = (D.column j).length := by
      rw [Snap.length_column, Snap.length_column, hY.len, hD.len]
    rw [a3 j (by omega), column_axpy h hY hD j (by omega), column_axpy h y2 d2 j (by omega), y3 j (by omega),
      d3 j (by omega), wvec_axpy h _ _ hlYD]
    have : (wvec b.weights (Y.column j)).length = (wvec b.weights (D.column j)).length := by
      match b.weights with
      | none => exact hlYD
      | some (.diag w) => simp [wvec, hlYD]
      | some (.full A) => simp [wvec, matVec]
    rw [matVec_vadd _ _ _ (by simp [vsmul, this]), matVec_vsmul]

/-- Lifting by rows is undone if it is undone row by row. -/
theorem rowLifter_undone {lift unlift : List (List K) → Except Err (List (List K))}
    {ddts : List (List K) → List (List K) → Except Err (List (List K))}
    (h1 : ∀ Q L, lift Q = .ok L → unlift L = .ok Q)
    (h2 : ∀ Q L, lift Q = .ok L → (∀ row ∈ Q, row.length = 1) → ∀ row ∈ L, row.length = 1) :
    (rowLifter lift ddts unlift).Undone := by
  have single : ∀ L : List (List K), (∀ row ∈ L, row.length = 1) → L.flatten.map (fun x => [x]) = L := by
    intro L
    induction L with
    | nil => intro _; rfl
    | cons r L ih =>
      intro h
      obtain ⟨x, rfl⟩ := length_eq_one_iff.1 (h r (by simp))
      simp [ih fun row hr => h row (by simp [hr])]
  intro q L hq hl
  simp only [rowLifter] at hl ⊢
  cases hL : lift q.rowLists with
  | error e => rw [hL] at hl; cases hl
  | ok M =>
    rw [hL] at hl
    simp only [Except.map, Except.ok.injEq] at hl
    subst hl
    cases q with
    | vec xs =>
      have hM := h2 _ _ hL (by simp [Snap.rowLists])
      simp only [Snap.withRows, Snap.rowLists, single M hM] at hL ⊢
      rw [h1 _ _ hL]
      simp only [Except.map, Snap.withRows]
      congr 2
      clear hL hM hq
      induction xs with
      | nil => rfl
      | cons x xs ih => simpa using ih
    | mat k rows =>
      simp only [Snap.withRows, Snap.rowLists] at hL ⊢
      rw [h1 _ _ hL]
      rfl

/-- Unlifting reverses lifting for `QuadraticLifter`. -/
theorem C47_quadratic_lifter [Semiring K] : (quadLifter (K := K)).Undone := by
  apply rowLifter_undone
  · intro Q L h
    cases h
    exact C41_quadratic_unlift Q
  · intro Q L h hQ row hr
    cases h
    simp only [quadLift, mem_append, mem_map] at hr
    rcases hr with hr | ⟨r, hr, rfl⟩
    · exact hQ row hr
    · simp [hQ r hr]

theorem powAll_row {pw : PowFn K} {p : ℚ} {Q P : List (List K)} (h : powAll pw p Q = .ok P) {row : List K}
    (hr : row ∈ P) : ∃ q ∈ Q, row.length = q.length := by
  obtain ⟨q, hq, hf⟩ := mapM_ok_mem h row hr
  refine ⟨q, hq, ?_⟩
  exact (mapM_ok_forall2.1 hf).length_eq.symm

/-- Unlifting reverses lifting for `PolynomialLifter` if 1 is among the orders. -/
theorem C47_polynomial_lifter [Field K] (pw : PowFn K) (h1 : pw.FirstPower) (orders : List ℚ) (ho : (1 : ℚ) ∈ orders) :
    (polyLifter pw orders).Undone := by
  apply rowLifter_undone
  · exact fun Q L h => C41_polynomial_unlift pw h1 orders ho Q L h
  · intro Q L h hQ row hr
    obtain ⟨bs, rfl, hl, -, -, hp⟩ := polyLift_ok h
    obtain ⟨b, hb, hrb⟩ := mem_flatten.1 hr
    obtain ⟨i, hi, rfl⟩ := mem_iff_getElem.1 hb
    have := hp i (by rw [← hl]; exact hi)
    rw [getD_eq_getElem?_getD, getD_eq_getElem?_getD, getElem?_eq_getElem hi, Option.getD_some] at this
    obtain ⟨q, hq, hlen⟩ := powAll_row this hrb
    rw [hlen]
    exact hQ q hq

/-! ### Witnesses -/

/-- A ROM with a quadratic lifter and a one-dimensional basis. -/
def exLiftRom : Rom ℚ (Shift ℚ) (LinB ℚ) :=
  ⟨some quadLifter, none, some (linI, ⟨none, some 2, some 1, some ⟨2, [[3/5, 4/5]]⟩, none⟩), true⟩

/-- C47: `project` is not idempotent for a ROM with a lifter, although unlifting reverses lifting and the basis is
orthonormal. -/
theorem C47_project_lifter_witness : (quadLifter (K := ℚ)).Undone ∧
    (linI (K := ℚ)).Reduces ⟨none, some 2, some 1, some ⟨2, [[3/5, 4/5]]⟩, none⟩ 2 1 ∧
    exLiftRom.project (.vec [1]) = .ok (.vec [21/25]) ∧ exLiftRom.project (.vec [21/25]) = .ok (.vec [10017/15625]) := by
  refine ⟨C47_quadratic_lifter, (C47_linear_basis (K := ℚ) ⟨none, some 2, some 1, some ⟨2, [[3/5, 4/5]]⟩, none⟩
    ⟨2, [[3/5, 4/5]]⟩ ⟨rfl, by simp [Cols.WF], trivial⟩ ((orthonormal_iff _ _).2 (by decide +kernel))).1, ?_, ?_⟩
  · decide +kernel
  · decide +kernel

/-- A ROM with a quadratic lifter and the standard basis. -/
def exLiftRom4 : Rom ℚ (Shift ℚ) (LinB ℚ) :=
  ⟨some quadLifter, none, some (linI, ⟨none, some 4, some 4, some ⟨4, eye 4⟩, none⟩), true⟩

/-- C47: with a lifter, `decode(z, locs)` gives neither as many entries as asked for nor, at other locations, the
right ones. -/
theorem C47_locs_lifter_witness : (exLiftRom4.decode (.vec [2, 3, 4, 9]) none).2 = .ok (.vec [2, 3]) ∧
    (exLiftRom4.decode (.vec [2, 3, 4, 9]) (some (.idx [0, 1]))).2 = .ok (.vec [2]) ∧
    (exLiftRom4.decode (.vec [2, 3, 4, 9]) (some (.idx [1]))).2 = .error .value := by
  refine ⟨?_, ?_, ?_⟩ <;> decide +kernel

/-- A ROM with a transformer but no basis. -/
def exShiftRom : Rom ℚ (Shift ℚ) (LinB ℚ) := ⟨none, some (shiftI, ⟨[10, 20], none⟩), none, true⟩

/-- C47: without a basis, `decode(z, locs)` raises ValueError, or combines the entries with the parameters of other
locations. -/
theorem C47_locs_no_basis_witness : (exShiftRom.decode (.vec [1, 2]) none).2 = .ok (.vec [11, 22]) ∧
    (exShiftRom.decode (.vec [1, 2]) (some (.idx [1, 0]))).2 = .ok (.vec [21, 12]) ∧
    (exShiftRom.decode (.vec [1, 2]) (some (.idx [1]))).2 = .error .value := by
  refine ⟨?_, ?_, ?_⟩ <;> decide +kernel

/-- A ROM with all parts. -/
def exRom : Rom ℚ (Shift ℚ) (LinB ℚ) :=
  ⟨none, some (shiftI, ⟨[10, 20], none⟩), some (linI, ⟨none, some 2, some 1, some ⟨2, [[3/5, 4/5]]⟩, none⟩), true⟩

example : exRom.TfReady 2 ∧ exRom.BasReady 2 1 ∧ (∀ I t, exRom.transformer = some (I, t) → I.InvertibleAt t 2) ∧
    (∀ I t, exRom.transformer = some (I, t) → I.Differentiates t 2) ∧
    (∀ I b, exRom.basis = some (I, b) → I.Linear b 2) := by
  have hb := C47_linear_basis (K := ℚ) ⟨none, some 2, some 1, some ⟨2, [[3/5, 4/5]]⟩, none⟩ ⟨2, [[3/5, 4/5]]⟩
    ⟨rfl, by simp [Cols.WF], trivial⟩ ((orthonormal_iff _ _).2 (by decide +kernel))
  refine ⟨?_, ⟨by simp [exRom], ?_⟩, ?_, ?_, ?_⟩
  · intro I t h; cases h; exact (C35_shift_invertible (K := ℚ) ⟨[10, 20], none⟩).1
  · intro I b h; cases h; exact hb.1
  · intro I t h; cases h; exact (C35_shift_invertible (K := ℚ) ⟨[10, 20], none⟩).2
  · intro I t h; cases h; exact C37_shift_differentiates (K := ℚ) ⟨[10, 20], none⟩
  · intro I b h; cases h; exact hb.2

example : exRom.encode1 (.vec [13, 24]) = .ok (.vec [5]) ∧ (exRom.decode (.vec [5]) none).2 = .ok (.vec [13, 24]) ∧
    (exRom.decode (.vec [5]) (some (.idx [-1]))).2 = .ok (.vec [24]) ∧
    exRom.predict (fun z => .ok z) (.vec [12, 20]) = .ok (.vec [268/25, 524/25]) := by
  refine ⟨?_, ?_, ?_, ?_⟩ <;> decide +kernel

end Opinf
