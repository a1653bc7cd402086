import Verif.Model.Equal
import Verif.Props.Interp
import Verif.Lemmas.ParamSelect
import Verif.Props.VerifySolver
import Mathlib.Algebra.Order.Ring.Rat

/-!
# C102: what `==` means

Objects that compare equal act alike, equality is reflexive, symmetric and transitive: where this
holds (trained transformers, operators and bases with the same arrays) and where it does not.
-/

namespace Opinf

open List

variable {K : Type}

/-! ## Transformers -/

section Sst

variable [DecidableEq K]

theorem Sst.beq_spec (s t : Sst K) :
    s.beq t = true ↔ s.centering = t.centering ∧ s.scaling = t.scaling ∧ s.byrow = t.byrow ∧
      s.n = t.n ∧ (s.centering = true → ∀ mu, s.mean = some mu → t.mean = some mu) ∧
      (s.scaling.isSome = true → ∀ a, s.alpha = some a →
        t.alpha = some a ∧ ∃ b, s.beta = some b ∧ t.beta = some b) := by
  obtain ⟨c, sc, br, nm, vb, n, mean, alpha, beta⟩ := s
  obtain ⟨c', sc', br', nm', vb', n', mean', alpha', beta'⟩ := t
  simp only [Sst.beq, Bool.and_eq_true, beq_iff_eq, and_assoc]
  constructor
  · rintro ⟨rfl, rfl, rfl, rfl, hm, hs⟩
    refine ⟨rfl, rfl, rfl, rfl, ?_, ?_⟩
    · rintro rfl mu rfl
      simpa using hm
    · intro hsc a ha
      subst ha
      rw [hsc] at hs
      simp only [Bool.and_eq_true, beq_iff_eq] at hs
      obtain ⟨⟨ha, hb⟩, he⟩ := hs
      obtain ⟨b, rfl⟩ := Option.isSome_iff_exists.1 hb
      exact ⟨ha, b, he, rfl⟩
  · rintro ⟨rfl, rfl, rfl, rfl, hm, hs⟩
    refine ⟨rfl, rfl, rfl, rfl, ?_, ?_⟩
    · split
      · rename_i mu
        simpa using hm rfl mu rfl
      · rfl
    · split
      · rename_i a hsc
        obtain ⟨ha, b, rfl, rfl⟩ := hs hsc a rfl
        simp [ha]
      · rfl

/-- What training provides. -/
theorem Sst.isTrained_iff (s : Sst K) :
    s.isTrained = true ↔ (s.centering = true → ∃ mu, s.mean = some mu) ∧
      (s.scaling.isSome = true → (∃ a, s.alpha = some a) ∧ ∃ b, s.beta = some b) := by
  obtain ⟨c, sc, br, nm, vb, n, mean, alpha, beta⟩ := s
  cases c <;> cases sc <;> cases mean <;> cases alpha <;> cases beta <;> simp [Sst.isTrained]

/-- **C102.** Between trained transformers equality means: same settings, same dimension and same
learned quantities; it is an equivalence relation. -/
theorem C102_trained_equivalence :
    (∀ s : Sst K, s.isTrained = true → s.beq s = true) ∧
    (∀ s t : Sst K, s.isTrained = true → s.beq t = true → t.isTrained = true ∧ t.beq s = true) ∧
    (∀ s t u : Sst K, s.isTrained = true → s.beq t = true → t.beq u = true → s.beq u = true) := by
  refine ⟨fun s hs => ?_, fun s t hs h => ?_, fun s t u hs h1 h2 => ?_⟩
  · rw [Sst.beq_spec]
    rw [Sst.isTrained_iff] at hs
    refine ⟨rfl, rfl, rfl, rfl, fun _ mu h => h, fun h a ha => ⟨ha, ?_⟩⟩
    obtain ⟨-, b, hb⟩ := hs.2 h
    exact ⟨b, hb, hb⟩
  · rw [Sst.beq_spec] at h
    rw [Sst.isTrained_iff] at hs
    obtain ⟨h1, h2, h3, h4, h5, h6⟩ := h
    have tr : t.isTrained = true := by
      rw [Sst.isTrained_iff]
      constructor
      · intro hc
        obtain ⟨mu, hmu⟩ := hs.1 (h1.trans hc)
        exact ⟨mu, h5 (h1.trans hc) mu hmu⟩
      · intro hc
        obtain ⟨⟨a, ha⟩, -⟩ := hs.2 (by rw [h2]; exact hc)
        obtain ⟨ha', b, -, hb'⟩ := h6 (by rw [h2]; exact hc) a ha
        exact ⟨⟨a, ha'⟩, b, hb'⟩
    refine ⟨tr, ?_⟩
    rw [Sst.beq_spec]
    refine ⟨h1.symm, h2.symm, h3.symm, h4.symm, ?_, ?_⟩
    · intro hc mu hmu
      obtain ⟨mu', hmu'⟩ := hs.1 (h1.trans hc)
      have := h5 (h1.trans hc) mu' hmu'
      rw [hmu] at this
      rw [hmu', this]
    · intro hc a ha
      obtain ⟨⟨a', ha'⟩, -⟩ := hs.2 (by rw [h2]; exact hc)
      obtain ⟨hta, b, hb, hb'⟩ := h6 (by rw [h2]; exact hc) a' ha'
      rw [ha] at hta
      exact ⟨by rw [ha', hta], b, hb', hb⟩
  · rw [Sst.beq_spec] at h1 h2 ⊢
    obtain ⟨a1, a2, a3, a4, a5, a6⟩ := h1
    obtain ⟨b1, b2, b3, b4, b5, b6⟩ := h2
    refine ⟨a1.trans b1, a2.trans b2, a3.trans b3, a4.trans b4, ?_, ?_⟩
    · intro hc mu hmu
      exact b5 (a1 ▸ hc) mu (a5 hc mu hmu)
    · intro hc a ha
      obtain ⟨h1, b, h2, h3⟩ := a6 hc a ha
      obtain ⟨h1', b', h2', h3'⟩ := b6 (a2 ▸ hc) a h1
      rw [h3] at h2'
      exact ⟨h1', b, h2, by rw [h3', h2']⟩

/-- **C102.** Equal transformers act alike: the same transformed snapshots and derivatives and the
same inverses, or the same exceptions. (Transformers without scaling have no scale and shift; their
setters refuse, see C40.) -/
theorem C102_equal_transformers_act_alike [Field K] (s t : Sst K) (hs : s.isTrained = true)
    (h : s.beq t = true) (hs0 : s.scaling = none → s.alpha = none ∧ s.beta = none)
    (ht0 : t.scaling = none → t.alpha = none ∧ t.beta = none) :
    (∀ Y, s.transform Y = t.transform Y) ∧ (∀ Y, s.ddts Y = t.ddts Y) ∧
      ∀ Y locs, s.inverse Y locs = t.inverse Y locs := by
  have tr := (C102_trained_equivalence.2.1 s t hs h).1
  have hs' := (Sst.isTrained_iff s).1 hs
  obtain ⟨h1, h2, h3, h4, h5, h6⟩ := (Sst.beq_spec s t).1 h
  -- the learned quantities that are used agree
  have hab : s.alpha = t.alpha ∧ s.beta = t.beta := by
    cases hsc : s.scaling with
    | none =>
      obtain ⟨e1, e2⟩ := hs0 hsc
      obtain ⟨e3, e4⟩ := ht0 (h2 ▸ hsc)
      exact ⟨e1.trans e3.symm, e2.trans e4.symm⟩
    | some sc =>
      obtain ⟨⟨a, ha⟩, -⟩ := hs'.2 (by rw [hsc]; rfl)
      obtain ⟨ha', b, hb, hb'⟩ := h6 (by rw [hsc]; rfl) a ha
      exact ⟨ha.trans ha'.symm, hb.trans hb'.symm⟩
  have hmu : s.centering = true → s.mean = t.mean := by
    intro hc
    obtain ⟨mu, hmu⟩ := hs'.1 hc
    rw [hmu, h5 hc mu hmu]
  obtain ⟨c, sc, br, nm, vb, n, mean, alpha, beta⟩ := s
  obtain ⟨c', sc', br', nm', vb', n', mean', alpha', beta'⟩ := t
  simp only at h1 h2 h3 h4 hab hmu
  obtain ⟨rfl, rfl⟩ := hab
  subst h1 h2 h3 h4
  have hcs : ∀ Y : Snap K, Sst.centerStep ⟨c, sc, br, nm, vb, n, mean, alpha, beta⟩ Y
      = Sst.centerStep ⟨c, sc, br, nm', vb', n, mean', alpha, beta⟩ Y := by
    intro Y
    cases c
    · rfl
    · obtain rfl := hmu rfl
      rfl
  have huc : ∀ is (Y : Snap K), Sst.uncenter ⟨c, sc, br, nm, vb, n, mean, alpha, beta⟩ is Y
      = Sst.uncenter ⟨c, sc, br, nm', vb', n, mean', alpha, beta⟩ is Y := by
    intro is Y
    cases c
    · rfl
    · obtain rfl := hmu rfl
      rfl
  refine ⟨fun Y => ?_, fun Y => ?_, fun Y locs => ?_⟩
  · simp only [Sst.transform, hs, tr, hcs]
    rfl
  · simp only [Sst.ddts, hs, tr]
  · simp only [Sst.inverse, hs, tr, huc]
    rfl

/-- **C102 (finding).** Equality is not symmetric when one transformer is untrained: with the same
settings and state dimension, `untrained == trained` is True and `trained == untrained` is
False. -/
theorem C102_untrained_asymmetric (t : Sst K) (ht : t.isTrained = true)
    (h : t.centering = true ∨ t.scaling.isSome = true) :
    let s : Sst K := { t with mean := none, alpha := none, beta := none }
    s.isTrained = false ∧ s.beq t = true ∧ t.beq s = false := by
  intro s
  rw [Sst.isTrained_iff] at ht
  refine ⟨?_, ?_, ?_⟩
  · by_contra hc
    have hc := (Sst.isTrained_iff s).1 (by simpa using hc)
    rcases h with h | h
    · obtain ⟨mu, hmu⟩ := hc.1 h
      cases hmu
    · obtain ⟨⟨a, ha⟩, -⟩ := hc.2 h
      cases ha
  · rw [Sst.beq_spec]
    exact ⟨rfl, rfl, rfl, rfl, fun _ mu h => (by cases h), fun _ a h => (by cases h)⟩
  · by_contra hc
    have hc := (Sst.beq_spec t s).1 (by simpa using hc)
    rcases h with h | h
    · obtain ⟨mu, hmu⟩ := ht.1 h
      have := hc.2.2.2.2.1 h mu hmu
      cases this
    · obtain ⟨⟨a, ha⟩, -⟩ := ht.2 h
      have := (hc.2.2.2.2.2 h a ha).1
      cases this

/-- **C102 (finding).** A transformer whose `scale_` was set but whose `shift_` was not is not even
equal to itself. -/
theorem C102_not_reflexive (s : Sst K) (h : s.scaling.isSome = true) (a : Coef K)
    (ha : s.alpha = some a) (hb : s.beta = none) : s.beq s = false := by
  by_contra hc
  have hc := (Sst.beq_spec s s).1 (by simpa using hc)
  obtain ⟨-, b, hb', -⟩ := hc.2.2.2.2.2 h a ha
  rw [hb] at hb'
  cases hb'

end Sst

/-- **C102.** `TransformerMulti` and `BasisMulti` objects are equal if they have the same number of
members and these are pairwise equal. -/
theorem C102_multi {S : Type} (eq : S → S → Bool) (ts us : List S) :
    multiEq eq ts us = true ↔ Forall₂ (fun t u => eq t u = true) ts us := by
  unfold multiEq
  simp only [Bool.and_eq_true, beq_iff_eq, all_eq_true, Prod.forall]
  rw [forall₂_iff_zip]

/-! ## Interpolated operators -/

section Interp

variable [Field K] [LinearOrder K] [IsStrictOrderedRing K]

/-- Two matrices with entries within the tolerances of `np.allclose`. -/
def Mat.CloseRows (A B : Mat K) : Prop := Forall₂ (Forall₂ NearTo) A.rows B.rows

theorem closeMats_iff {As Bs : List (Mat K)} :
    closeMats As Bs = true ↔ Forall₂ Mat.CloseRows As Bs := by
  induction As generalizing Bs with
  | nil =>
    cases Bs with
    | nil => exact ⟨fun _ => .nil, fun _ => rfl⟩
    | cons B Bs => exact ⟨fun h => (by cases h), fun h => (by cases h)⟩
  | cons A As ih =>
    cases Bs with
    | nil => exact ⟨fun h => (by cases h), fun h => (by cases h)⟩
    | cons B Bs =>
      simp only [closeMats, Bool.and_eq_true, closeRows_iff, ih, forall₂_cons, Mat.CloseRows]

/-- **C102.** Two interpolated operators are equal if they are of the same class, have the same
training parameters and interpolator class, and entries of the same shape that agree within the
tolerances of `np.allclose` (relative to the right operand). -/
theorem C102_interp_eq_iff (t u : Interp K) :
    t.pyEq u = true ↔ t.kind = u.kind ∧ t.params = u.params ∧ t.cls = u.cls ∧
      ((t.entries = none ∧ u.entries = none) ∨ ∃ As Bs, t.entries = some As ∧
        u.entries = some Bs ∧ firstShape As = firstShape Bs ∧ Forall₂ Mat.CloseRows As Bs) := by
  unfold Interp.pyEq
  by_cases h1 : t.kind = u.kind
  · by_cases h2 : t.params = u.params
    · by_cases h3 : t.cls = u.cls
      · rw [if_neg (not_not.2 h1), if_neg (not_not.2 h2), if_neg (not_not.2 h3)]
        cases he : t.entries with
        | none =>
          cases hf : u.entries with
          | none => simp [h1, h2, h3]
          | some Bs => simp
        | some As =>
          cases hf : u.entries with
          | none => simp
          | some Bs =>
            by_cases h4 : firstShape As = firstShape Bs
            · simp [h1, h2, h3, h4, closeMats_iff]
            · simp [h4]
      · simp [h3]
    · simp [h2]
  · simp [h1]

/-- **C102.** An interpolated operator equals itself (hence also its copies, which are the same
operator where copying succeeds, see C11). -/
theorem C102_interp_reflexive (t : Interp K) : t.pyEq t = true := by
  rw [C102_interp_eq_iff]
  refine ⟨rfl, rfl, rfl, ?_⟩
  cases t.entries with
  | none => exact Or.inl ⟨rfl, rfl⟩
  | some As =>
    refine Or.inr ⟨As, As, rfl, rfl, rfl, forall₂_same.2 fun A _ => ?_⟩
    exact closeRows_iff.1 (closeRows_self A.rows)

omit [IsStrictOrderedRing K] in
/-- What a successful constructor call returns. -/
theorem interpMake_inv {lib : ItpLib K} {kind : OpKind} {ps : List (Par K)} {e : EntArg K}
    {c : Option ItpClass} {t : Interp K}
    (h : Interp.make lib kind (some ps) (some e) c = .ok t) :
    ∃ P As, t = interpOf kind c P As ∧ As.length = P.length ∧
      lib.build (itpData c P As).1 (itpData c P As).2.1 (itpData c P As).2.2 = .ok () := by
  cases hP : PArr.ofPars ps with
  | error err => simp [Interp.make, Interp.start, Interp.setParams, hP] at h
  | ok P =>
    cases hA : parseEntries kind P.length e with
    | error err =>
      simp [Interp.make, Interp.start, Interp.setParams, hP, Interp.setEntries, hA, finish] at h
    | ok As =>
      cases hb : lib.build (itpData c P As).1 (itpData c P As).2.1 (itpData c P As).2.2 with
      | error err =>
        simp [Interp.make, Interp.start, Interp.setParams, hP, Interp.setEntries, hA, finish,
          Interp.setInterpolator, hb] at h
      | ok x =>
        simp only [Interp.make, Interp.start, Interp.setParams, hP, Interp.setEntries, hA, finish,
          Interp.setInterpolator, hb, Option.isSome_none, Bool.false_eq_true, if_false] at h
        exact ⟨P, As, (Except.ok.inj h).symm, parseEntries_length hA, hb⟩

omit [IsStrictOrderedRing K] in
theorem itpData_agree {lib : ItpLib K} (hlib : lib.Contract) {c c' : Option ItpClass} {P : PArr K}
    {As : List (Mat K)} (hl : As.length = P.length)
    (hb : lib.build (itpData c P As).1 (itpData c P As).2.1 (itpData c P As).2.2 = .ok ())
    (hc : (itpData c P As).1 = (itpData c' P As).1) (hn : c' = none) :
    itpData c P As = itpData c' P As := by
  subst hn
  cases c with
  | none => rfl
  | some c =>
    cases P with
    | two p rows =>
      have hc : c = .linearND := hc
      subst hc
      rfl
    | one xs =>
      have hc : c = .cubic := hc
      subst hc
      have hs : xs.Pairwise (· < ·) := by
        by_contra hne
        have : lib.build .cubic (.one xs) As = .ok () := hb
        rw [hlib.cubic_order xs As hne] at this
        cases this
      have := itpData_inOrder (⟨.lin, some (.one xs), none, none, none, none⟩ : Interp K)
        (fun _ ys hy => by
          obtain rfl : xs = ys := by simpa using hy
          exact hs.imp le_of_lt) (.one xs) rfl As hl
      exact this.symm

omit [IsStrictOrderedRing K] in
/-- **C102 (partial).** Interpolated operators that are equal and whose entries agree exactly act
alike: they evaluate to the same operator at every parameter value, or raise the same exception.
What is missing is the case of entries that agree only within the tolerances, for which it is
false (`C102_interp_witness`). -/
theorem C102_interp_act_alike_partial (lib : ItpLib K) (hlib : lib.Contract) (kind kind' : OpKind)
    (ps ps' : List (Par K)) (e e' : EntArg K) (c c' : Option ItpClass) (t u : Interp K)
    (ht : Interp.make lib kind (some ps) (some e) c = .ok t)
    (hu : Interp.make lib kind' (some ps') (some e') c' = .ok u) (h : t.pyEq u = true)
    (hent : t.entries = u.entries) (mu : Par K) : t.evaluate lib mu = u.evaluate lib mu := by
  obtain ⟨P, As, rfl, hl, hb⟩ := interpMake_inv ht
  obtain ⟨P', As', rfl, hl', hb'⟩ := interpMake_inv hu
  obtain rfl : As = As' := Option.some.inj hent
  unfold Interp.pyEq at h
  by_cases h1 : kind = kind'
  swap
  · simp [interpOf, h1] at h
  by_cases h2 : P = P'
  swap
  · simp [interpOf, h2] at h
  by_cases h3 : (itpData c P As).1 = (itpData c' P' As).1
  swap
  · simp [interpOf, h3] at h
  subst h1 h2
  have key : itpData c P As = itpData c' P As := by
    cases c' with
    | none => exact itpData_agree hlib hl hb h3 rfl
    | some c1 =>
      cases c with
      | none => exact (itpData_agree hlib hl hb' h3.symm rfl).symm
      | some c2 =>
        have : c2 = c1 := h3
        rw [this]
  unfold interpOf
  rw [key]

end Interp

/-- An interpolated operator with one 1 x 1 matrix for each of two parameter values. -/
def twoPoint (x y : ℚ) : Interp ℚ :=
  interpOf .lin none (.one [0, 1]) [⟨1, 1, [[x]]⟩, ⟨1, 1, [[y]]⟩]

/-- The operators of the following theorem can be constructed. -/
example (x y : ℚ) : Interp.make toyLib .lin (some [.scalar 0, .scalar 1])
    (some (.list [⟨1, 1, [[x]]⟩, ⟨1, 1, [[y]]⟩])) none = .ok (twoPoint x y) := by
  rfl

/-- **C102 (finding).** Equality of interpolated operators is neither symmetric nor transitive, and
equal operators may evaluate to operators that are not equal. -/
theorem C102_interp_witness :
    ((twoPoint 1 1).pyEq (twoPoint (1 + 100100001 / 10 ^ 13) 1) = true ∧
      (twoPoint (1 + 100100001 / 10 ^ 13) 1).pyEq (twoPoint 1 1) = false) ∧
    ((twoPoint 1 1).pyEq (twoPoint (1 + 1 / 10 ^ 5) 1) = true ∧
      (twoPoint (1 + 1 / 10 ^ 5) 1).pyEq (twoPoint (1 + 2 / 10 ^ 5) 1) = true ∧
      (twoPoint 1 1).pyEq (twoPoint (1 + 2 / 10 ^ 5) 1) = false) ∧
    ((twoPoint 1 1).evaluate toyLib (.scalar 0) = .ok ⟨.lin, some ⟨1, 1, [[1]]⟩⟩ ∧
      (twoPoint (1 + 1 / 10 ^ 5) 1).evaluate toyLib (.scalar 0)
        = .ok ⟨.lin, some ⟨1, 1, [[1 + 1 / 10 ^ 5]]⟩⟩) := by
  decide +kernel

/-! ## Linear bases -/

section LinB

variable [Field K] [LinearOrder K] [IsStrictOrderedRing K]

/-- Weights that count as equal: both missing, or of the same kind and entrywise within the
tolerances of `np.allclose`. -/
def weightsNear : Option (Weights K) → Option (Weights K) → Prop
  | none, none => True
  | some (.diag v), some (.diag w) => Forall₂ NearTo v w
  | some (.full A), some (.full B) => Forall₂ (Forall₂ NearTo) A.rows B.rows
  | _, _ => False

theorem weightsEq_iff (v w : Option (Weights K)) : weightsEq v w = .ok true ↔ weightsNear v w := by
  cases v with
  | none => cases w <;> simp [weightsEq, weightsNear]
  | some v =>
    cases w with
    | none => simp [weightsEq, weightsNear]
    | some w =>
      cases v <;> cases w <;> simp [weightsEq, weightsNear, closeList_iff, closeRows_iff]

/-- **C102.** Two linear bases are equal if they have the same dimensions and entries and weights
that agree within the tolerances of `np.allclose`. -/
theorem C102_basis_eq_iff (a b : LinB K) :
    a.pyEq b = .ok true ↔ a.n = b.n ∧ a.r = b.r ∧ weightsNear a.weights b.weights ∧
      a.entries = b.entries := by
  unfold LinB.pyEq
  by_cases h : a.n ≠ b.n ∨ a.r ≠ b.r
  · rw [if_pos h]
    constructor
    · intro h'
      cases h'
    · rintro ⟨h1, h2, -⟩
      rcases h with h | h
      · exact absurd h1 h
      · exact absurd h2 h
  · rw [if_neg h]
    push Not at h
    rw [← weightsEq_iff]
    cases hw : weightsEq a.weights b.weights with
    | error e => simp
    | ok x => cases x <;> simp [h.1, h.2]

/-- **C102 (finding).** Two linear bases of the same dimensions, one with weights given as a vector
and the other with a matrix of weights, are not reported as different: the comparison raises. -/
theorem C102_basis_weights_raise (a b : LinB K) (hn : a.n = b.n) (hr : a.r = b.r) (w : List K)
    (W : Mat K) (h : (a.weights = some (.diag w) ∧ b.weights = some (.full W)) ∨
      (a.weights = some (.full W) ∧ b.weights = some (.diag w))) :
    a.pyEq b = .error .type := by
  unfold LinB.pyEq
  rw [if_neg (by simp [hn, hr])]
  rcases h with ⟨h1, h2⟩ | ⟨h1, h2⟩ <;> rw [h1, h2] <;> rfl

/-- **C102.** A linear basis equals itself; without weights the equality is the one of the entries
and dimensions, an equivalence relation. -/
theorem C102_basis_reflexive (a : LinB K) :
    a.pyEq a = .ok true ∧ ∀ b : LinB K, a.weights = none →
      (a.pyEq b = .ok true ↔ a.n = b.n ∧ a.r = b.r ∧ a.entries = b.entries ∧ b.weights = none) := by
  constructor
  · rw [C102_basis_eq_iff]
    refine ⟨rfl, rfl, ?_, rfl⟩
    cases hw : a.weights with
    | none => trivial
    | some w =>
      cases w with
      | diag v => exact closeList_iff.1 (closeList_self v)
      | full A => exact closeRows_iff.1 (closeRows_self A.rows)
  · intro b hw
    rw [C102_basis_eq_iff, hw]
    cases hb : b.weights <;> simp [weightsNear]

/-- **C102 (partial).** Equal bases decompress alike; they compress alike if they have the same
weights. What is missing is the case of weights that agree only within the tolerances, for which
it is false (`C102_basis_witness`). -/
theorem C102_basis_act_alike_partial (a b : LinB K) (h : a.pyEq b = .ok true) :
    (∀ Z locs, a.decompress Z locs = b.decompress Z locs) ∧
    (a.weights = b.weights → ∀ Y, a.compress Y = b.compress Y) := by
  obtain ⟨-, -, -, he⟩ := (C102_basis_eq_iff a b).1 h
  refine ⟨fun Z locs => ?_, fun hw Y => ?_⟩
  · simp only [LinB.decompress, LinB.need, he]
  · simp only [LinB.compress, LinB.need, he, hw]

end LinB

/-- A basis of one vector with the weight `w`. -/
def weighted (w : ℚ) : LinB ℚ := ⟨none, some 1, some 1, some ⟨1, [[1]]⟩, some (.diag [w])⟩

/-- **C102 (finding).** Equality of bases with weights is neither symmetric nor transitive, and
equal bases may compress a state differently. -/
theorem C102_basis_witness :
    ((weighted 1).pyEq (weighted (1 + 100100001 / 10 ^ 13)) = .ok true ∧
      (weighted (1 + 100100001 / 10 ^ 13)).pyEq (weighted 1) = .ok false) ∧
    ((weighted 1).pyEq (weighted (1 + 1 / 10 ^ 5)) = .ok true ∧
      (weighted (1 + 1 / 10 ^ 5)).pyEq (weighted (1 + 2 / 10 ^ 5)) = .ok true ∧
      (weighted 1).pyEq (weighted (1 + 2 / 10 ^ 5)) = .ok false) ∧
    (weighted 1).compress (.vec [1]) = .ok (.vec [1]) ∧
    (weighted (1 + 1 / 10 ^ 5)).compress (.vec [1]) = .ok (.vec [1 + 1 / 10 ^ 5]) := by
  decide +kernel

/-! ## Examples -/

/-- Two trained transformers that differ in name only are equal; one with another mean is not. -/
example :
    (⟨true, none, false, none, false, some 2, some [1, 2], none, none⟩ : Sst ℚ).isTrained = true ∧
    (⟨true, none, false, none, false, some 2, some [1, 2], none, none⟩ : Sst ℚ).beq
      ⟨true, none, false, some "a", true, some 2, some [1, 2], none, none⟩ = true ∧
    (⟨true, none, false, none, false, some 2, some [1, 2], none, none⟩ : Sst ℚ).beq
      ⟨true, none, false, none, false, some 2, some [1, 3], none, none⟩ = false := by
  decide +kernel

/-- Equal interpolated operators made with and without naming the interpolator class. -/
example :
    Interp.make toyLib .lin (some [.scalar 0, .scalar 1])
      (some (.list [⟨1, 1, [[(5 : ℚ)]]⟩, ⟨1, 1, [[6]]⟩])) (some .cubic)
      = .ok (interpOf .lin (some .cubic) (.one [0, 1]) [⟨1, 1, [[5]]⟩, ⟨1, 1, [[6]]⟩]) ∧
    (interpOf .lin (some .cubic) (.one [0, 1]) [⟨1, 1, [[5]]⟩, ⟨1, 1, [[6]]⟩]).pyEq
      (twoPoint 5 6) = true := by
  decide +kernel

end Opinf
