import Verif.Model.AffineLife
import Verif.Props.Affine

/-!
# C134: what an affine operator object is after any calls
-/

namespace Opinf

open List

variable {K : Type}

/-- The parts of an affine operator fixed by the constructor agree. -/
def Affine.SameMake (a b : Affine K) : Prop := a.kind = b.kind ∧ a.nterms = b.nterms ∧ a.coeffs = b.coeffs

/-- The number of entries is the number of terms. -/
def Affine.Counted (a : Affine K) : Prop := ∀ As, a.entries = some As → As.length = a.nterms

/-- The calls contain no clearing. -/
def NoClear (steps : List (AffStep K)) : Prop := ∀ s ∈ steps, s ≠ .clear

theorem parseEntries_count [AddMonoid K] (kind : OpKind) (n : Nat) (e : EntArg K) (As : List (Mat K))
    (h : parseEntries kind n e = .ok As) : As.length = n := by
  simp only [parseEntries, bind, Except.bind] at h
  split at h
  · cases h
  · rename_i Bs hB
    by_cases h1 : (!sameShapes Bs) = true
    · simp [h1, throw, throwThe, MonadExceptOf.throw] at h
    · by_cases h2 : Bs.length = n
      · simp only [h1, h2, ne_eq, not_true_eq_false, if_false, pure, Except.pure] at h
        have := (mapM_ok_forall2 (f := kind.setEntries).mp (by simpa using h)).length_eq
        omega
      · simp [h1, h2, throw, throwThe, MonadExceptOf.throw, pure, Except.pure] at h

section
variable [Semiring K]

theorem evaluate_object (a : Affine K) (mu : Par K) :
    (a.evaluate mu).1 = if a.entries.isSome then a.learnDim mu else a := by
  unfold Affine.evaluate
  cases a.entries with
  | none => rfl
  | some As =>
    simp only [Option.isSome_some, if_true]
    split <;> rfl

theorem affStep_keeps (a : Affine K) (s : AffStep K) (h : a.Counted) :
    (s.run a).1.SameMake a ∧ (s.run a).1.Counted ∧
    (s ≠ .clear → ∀ d, a.p = some d → (s.run a).1.p = some d) ∧
    (s ≠ .clear → a.entries.isSome → (s.run a).1.entries.isSome) := by
  cases s with
  | entries e =>
    simp only [AffStep.run, Affine.setEntries]
    cases hp : parseEntries a.kind a.nterms e with
    | error err => exact ⟨⟨rfl, rfl, rfl⟩, h, fun _ d hd => hd, fun _ hs => hs⟩
    | ok As => exact ⟨⟨rfl, rfl, rfl⟩, fun As' hA => by
        simp only [Option.some.injEq] at hA; subst hA; exact parseEntries_count _ _ _ _ hp,
        fun _ d hd => hd, fun _ _ => rfl⟩
  | dimension p =>
    simp only [AffStep.run, setParamDim]
    cases hp : a.p with
    | some d =>
      refine ⟨⟨rfl, rfl, rfl⟩, h, fun _ d' hd => ?_, fun _ hs => hs⟩
      simpa [hp] using hd
    | none =>
      by_cases h1 : p < 1
      · simp only [Option.isSome_none, Bool.false_eq_true, if_false, h1, if_true]
        exact ⟨⟨rfl, rfl, rfl⟩, h, fun _ d' hd => (by cases hd), fun _ hs => hs⟩
      · simp only [Option.isSome_none, Bool.false_eq_true, if_false, h1]
        exact ⟨⟨rfl, rfl, rfl⟩, h, fun _ d' hd => (by cases hd), fun _ hs => hs⟩
  | evaluate mu =>
    simp only [AffStep.run]
    rw [evaluate_object]
    by_cases he : a.entries.isSome
    · simp only [he, if_true, Affine.learnDim]
      cases hp : a.p with
      | some d =>
        refine ⟨⟨rfl, rfl, rfl⟩, h, fun _ d' hd => ?_, fun _ hs => he⟩
        simpa [hp] using hd
      | none => exact ⟨⟨rfl, rfl, rfl⟩, h, fun _ d' hd => (by cases hd), fun _ _ => he⟩
    · simp only [he, if_false]
      exact ⟨⟨rfl, rfl, rfl⟩, h, fun _ d hd => hd, fun _ hs => (by cases hs)⟩
  | clear =>
    exact ⟨⟨rfl, rfl, rfl⟩, fun As hA => by simp [AffStep.run, Affine.clear] at hA,
      fun hn => (hn rfl).elim, fun hn => (hn rfl).elim⟩

/-! ### C134 -/

/-- **C134 (any calls).** Whatever is called on an affine operator, raising or not: its class, number of
terms and coefficient function never change, and the number of its entries is its number of terms. -/
theorem C134_any_calls (steps : List (AffStep K)) : ∀ a : Affine K, a.Counted →
    (runAff a steps).SameMake a ∧ (runAff a steps).Counted := by
  induction steps with
  | nil => exact fun a h => ⟨⟨rfl, rfl, rfl⟩, h⟩
  | cons s steps ih =>
    intro a h
    obtain ⟨⟨h1, h2, h3⟩, hc, -, -⟩ := affStep_keeps a s h
    obtain ⟨⟨g1, g2, g3⟩, gc⟩ := ih _ hc
    exact ⟨⟨g1.trans h1, g2.trans h2, g3.trans h3⟩, gc⟩

/-- **C134 (from the constructor).** In particular for every operator made by the constructor. -/
theorem C134_constructed (kind : OpKind) (c : CoefArg K) (nterms : Option Int) (e : Option (EntArg K))
    (a : Affine K) (ha : Affine.make kind c nterms e = .ok a) (steps : List (AffStep K)) :
    (runAff a steps).SameMake a ∧ ∀ As, (runAff a steps).entries = some As → As.length = a.nterms := by
  have hc : a.Counted := by
    unfold Affine.make at ha
    cases hs : Affine.start kind c nterms with
    | error err => simp [hs] at ha
    | ok b =>
      have hb : b.entries = none := by
        unfold Affine.start at hs
        by_cases hn : nterms.any (· < 1)
        · simp [hn] at hs
        · rw [if_neg hn] at hs
          cases c with
          | int n => simp only at hs; split at hs <;> simp at hs; rw [← hs]
          | other => simp at hs
          | list fs => simp only at hs; split at hs <;> simp at hs; rw [← hs]
          | func f => cases nterms <;> simp at hs; rw [← hs]
      simp only [hs] at ha
      cases e with
      | none => simp only [Except.ok.injEq] at ha; subst ha; intro As hA; rw [hb] at hA; cases hA
      | some e =>
        simp only [Affine.setEntries] at ha
        cases hp : parseEntries b.kind b.nterms e with
        | error err => simp [hp] at ha
        | ok As =>
          simp only [hp, Except.ok.injEq] at ha
          subst ha
          intro As' hA
          simp only [Option.some.injEq] at hA
          subst hA
          exact parseEntries_count _ _ _ _ hp
  obtain ⟨h1, h2⟩ := C134_any_calls steps a hc
  exact ⟨h1, fun As hA => (h2 As hA).trans h1.2.1⟩

/-- **C134 (the parameter dimension stays).** Until the operator is cleared no call changes a parameter
dimension once it is known, and entries once set are not lost. -/
theorem C134_dimension_stays (steps : List (AffStep K)) : ∀ a : Affine K, a.Counted → NoClear steps →
    (∀ d, a.p = some d → (runAff a steps).p = some d) ∧
    (a.entries.isSome → (runAff a steps).entries.isSome) := by
  induction steps with
  | nil => exact fun a _ _ => ⟨fun d h => h, fun h => h⟩
  | cons s steps ih =>
    intro a h hn
    obtain ⟨-, hc, hp, he⟩ := affStep_keeps a s h
    have hs := hn s (by simp)
    obtain ⟨g1, g2⟩ := ih _ hc fun s' hs' => hn s' (by simp [hs'])
    exact ⟨fun d hd => g1 d (hp hs d hd), fun hh => g2 (he hs hh)⟩

/-- **C134 (the first evaluation decides).** An operator with entries and unknown parameter dimension
takes it from the first parameter it is evaluated at, even if that evaluation raises: from then on, whatever
is called but clearing, parameters of any other dimension are refused with `ValueError`. -/
theorem C134_first_evaluation (a : Affine K) (ha : a.Counted) (he : a.entries.isSome) (hp : a.p = none)
    (mu nu : Par K) (hd : nu.dim ≠ mu.dim) (steps : List (AffStep K)) (hn : NoClear steps) :
    (runAff a (.evaluate mu :: steps)).p = some mu.dim ∧
    ((runAff a (.evaluate mu :: steps)).evaluate nu).2 = .error .value := by
  have hobj : ((AffStep.evaluate mu).run a).1 = { a with p := some mu.dim } := by
    simp only [AffStep.run]
    rw [evaluate_object]
    simp [he, Affine.learnDim, hp]
  have hc := (affStep_keeps a (.evaluate mu) ha).2.1
  have hst := C134_dimension_stays steps _ hc hn
  rw [hobj] at hst
  have h1 : (runAff a (.evaluate mu :: steps)).p = some mu.dim := by
    simp only [runAff, hobj]; exact hst.1 _ rfl
  have h2 : (runAff a (.evaluate mu :: steps)).entries.isSome := by
    simp only [runAff, hobj]; exact hst.2 he
  refine ⟨h1, ?_⟩
  obtain ⟨As, hA⟩ := Option.isSome_iff_exists.mp h2
  unfold Affine.evaluate
  rw [hA]
  simp [Affine.learnDim, h1, hd]

/-- **C134 (calls that raise, partial).** Setting entries or the parameter dimension changes nothing when
it raises, nor does evaluating an operator without entries or with a known parameter dimension. What is
missing: an evaluation that raises while the parameter dimension is unknown, see
`C134_first_evaluation`. -/
theorem C134_raising_partial (a : Affine K) (s : AffStep K) (e : Err) (h : (s.run a).2 = .error e)
    (hs : ∀ mu, s = .evaluate mu → a.entries = none ∨ a.p ≠ none) : (s.run a).1 = a := by
  cases s with
  | entries x =>
    simp only [AffStep.run] at h ⊢
    cases hx : a.setEntries x with
    | error err => rfl
    | ok b => simp [hx] at h
  | dimension p =>
    simp only [AffStep.run] at h ⊢
    cases hx : setParamDim a.p p with
    | error err => rfl
    | ok b => simp [hx] at h
  | evaluate mu =>
    simp only [AffStep.run]
    rw [evaluate_object]
    rcases hs mu rfl with h1 | h1
    · simp [h1]
    · obtain ⟨d, hd⟩ := Option.ne_none_iff_exists'.mp h1
      simp [Affine.learnDim, hd]
  | clear => simp [AffStep.run] at h

/-- **C134 (the setter of the parameter dimension).** It raises `AttributeError` if a dimension is known,
`ValueError` for zero, and else records the dimension. -/
theorem C134_set_dimension (a : Affine K) (d : Nat) :
    (∀ p, a.p = some p → (AffStep.dimension d).run a = (a, .error .attribute)) ∧
    (a.p = none → d = 0 → (AffStep.dimension d).run a = (a, .error .value)) ∧
    (a.p = none → 0 < d → (AffStep.dimension d).run a
      = (⟨a.kind, a.nterms, a.coeffs, some d, a.entries⟩, .ok ())) := by
  refine ⟨fun p h => by simp [AffStep.run, setParamDim, h], fun h h0 => ?_, fun h h0 => ?_⟩
  · subst h0; simp [AffStep.run, setParamDim, h]
  · have : ¬ d < 1 := by omega
    simp [AffStep.run, setParamDim, h, this]

/-- **C134 (clearing).** After clearing the parameter dimension is unknown, also for operators made with an
integer number of coefficients, which know it when constructed. -/
theorem C134_cleared_dimension (kind : OpKind) (n : Nat) (hn : 0 < n) (nterms : Option Int)
    (hnt : nterms.all (0 < ·) = true) :
    ∃ a : Affine K, Affine.make kind (.int n) nterms none = .ok a ∧ a.p = some n ∧ a.clear.p = none ∧
      a.clear.SameMake a ∧ a.clear.entries = none := by
  have h1 : nterms.any (· < 1) = false := by
    cases nterms with
    | none => rfl
    | some k => simp at hnt ⊢; omega
  refine ⟨⟨kind, n, fun mu => .ok mu, some n, none⟩, ?_, rfl, rfl, ⟨rfl, rfl, rfl⟩, rfl⟩
  unfold Affine.make Affine.start
  simp [h1, hn]

/-- **C134 (clearing forgets everything).** Once an operator is cleared, nothing that was called before matters: it behaves
like an operator with the same coefficient function that has never been given entries or a parameter dimension. -/
theorem C134_cleared_forgets (a : Affine K) (ha : a.Counted) (before after : List (AffStep K)) :
    runAff a (before ++ .clear :: after) = runAff ⟨a.kind, a.nterms, a.coeffs, none, none⟩ after := by
  induction before generalizing a with
  | nil => rfl
  | cons s before ih =>
    obtain ⟨⟨h1, h2, h3⟩, hc, -, -⟩ := affStep_keeps a s ha
    rw [cons_append, runAff, ih _ hc, h1, h2, h3]

/-- **C134 (setting entries).** A list of arrays is accepted exactly if it has one array per term, all of
the same shape, and the operator class accepts each; the entries are what the class makes of them. -/
theorem C134_set_entries (a b : Affine K) (As : List (Mat K)) :
    a.setEntries (.list As) = .ok b ↔
      (∀ A ∈ As, ∀ B ∈ As, A.nrows = B.nrows ∧ A.ncols = B.ncols) ∧ As.length = a.nterms ∧
      ∃ Es, Forall₂ (fun A E => a.kind.setEntries A = .ok E) As Es ∧
        b = ⟨a.kind, a.nterms, a.coeffs, a.p, some Es⟩ := by
  have hsh : sameShapes As = true ↔ ∀ A ∈ As, ∀ B ∈ As, A.nrows = B.nrows ∧ A.ncols = B.ncols := by
    cases As with
    | nil => simp [sameShapes]
    | cons A As =>
      simp only [sameShapes, all_eq_true, Bool.and_eq_true, beq_iff_eq]
      constructor
      · intro h X hX Y hY
        have key : ∀ Z ∈ A :: As, Z.nrows = A.nrows ∧ Z.ncols = A.ncols := by
          intro Z hZ
          rcases mem_cons.mp hZ with rfl | hZ
          · exact ⟨rfl, rfl⟩
          · exact h Z hZ
        exact ⟨(key X hX).1.trans (key Y hY).1.symm, (key X hX).2.trans (key Y hY).2.symm⟩
      · intro h B hB
        exact h B (by simp [hB]) A (by simp)
  rw [← hsh]
  simp only [Affine.setEntries, parseEntries, bind, Except.bind]
  by_cases h1 : sameShapes As = true
  · by_cases h2 : As.length = a.nterms
    · simp only [h1, h2, Bool.not_true, Bool.false_eq_true, ne_eq, not_true_eq_false, if_false, pure,
        Except.pure, true_and]
      cases hm : As.mapM a.kind.setEntries with
      | error e =>
        constructor
        · intro h; cases h
        · rintro ⟨Es, hE, -⟩
          have : As.mapM a.kind.setEntries = .ok Es := mapM_ok_forall2.mpr hE
          rw [this] at hm; cases hm
      | ok Es =>
        constructor
        · intro h
          simp only [Except.ok.injEq] at h
          exact ⟨Es, mapM_ok_forall2.mp hm, h.symm⟩
        · rintro ⟨Es', hE, hb⟩
          have : As.mapM a.kind.setEntries = .ok Es' := mapM_ok_forall2.mpr hE
          rw [this] at hm
          simp only [Except.ok.injEq] at hm
          rw [hb, hm]
    · simp [h1, h2, throw, throwThe, MonadExceptOf.throw, pure, Except.pure]
  · simp [h1, throw, throwThe, MonadExceptOf.throw, pure, Except.pure]

/-- **C134 (block entries).** One array is split into as many parts of equal width as there are terms,
which are then treated like a list; it is refused with `ValueError` if its width is not a multiple of the
number of terms. -/
theorem C134_set_block (a : Affine K) (hn : 0 < a.nterms) (B : Mat K) (w : Nat) :
    (B.ncols = a.nterms * w → a.setEntries (.block B)
      = a.setEntries (.list ((range a.nterms).map fun i => B.colSlice (i * w) ((i + 1) * w)))) ∧
    (¬ a.nterms ∣ B.ncols → a.setEntries (.block B) = .error .value) := by
  constructor
  · intro h
    have h1 : B.ncols % a.nterms = 0 := by rw [h]; simp
    have h2 : B.ncols / a.nterms = w := by rw [h, Nat.mul_div_cancel_left _ hn]
    simp only [Affine.setEntries, parseEntries, npSplit, if_neg (Nat.ne_of_gt hn), h1, h2, ne_eq,
      not_true_eq_false, if_false]
  · intro h
    have h1 : B.ncols % a.nterms ≠ 0 := fun h0 => h (Nat.dvd_of_mod_eq_zero h0)
    simp [Affine.setEntries, parseEntries, npSplit, Nat.ne_of_gt hn, h1, bind, Except.bind]

end

/-! ### The hypotheses are satisfiable -/

/-- One term whose coefficient is the first entry of a parameter with two entries. -/
def lifeAff : Affine ℚ :=
  ⟨.lin, 1, fun mu => match mu with | .vec [x, _] => .ok (.vec [x]) | _ => .error .index, none,
    some [⟨1, 1, [[2]]⟩]⟩

/-- **C134 (concrete witness).** The coefficient function needs parameters of two entries. Evaluating once
with a number raises, and from then on the right parameters are refused too. -/
theorem C134_first_evaluation_witness :
    (lifeAff.evaluate (.vec [3, 5])).2 = .ok ⟨.lin, some ⟨1, 1, [[6]]⟩⟩ ∧
    (lifeAff.evaluate (.scalar 3)).2 = .error .index ∧
    ((runAff lifeAff [.evaluate (.scalar 3)]).evaluate (.vec [3, 5])).2 = .error .value := by
  decide +kernel

example : lifeAff.Counted ∧ lifeAff.entries.isSome ∧ lifeAff.p = none ∧
    NoClear [AffStep.entries (.list [(⟨1, 1, [[7]]⟩ : Mat ℚ)]), .dimension 3] := by
  refine ⟨fun As h => ?_, rfl, rfl, fun s hs => ?_⟩
  · simp only [lifeAff, Option.some.injEq] at h; subst h; rfl
  · simp only [mem_cons, not_mem_nil, or_false] at hs
    rcases hs with rfl | rfl <;> simp
example : (runAff lifeAff [.entries (.list [⟨1, 1, [[7]]⟩]), .dimension 2, .dimension 3,
    .entries (.list [])]).entries = some [⟨1, 1, [[7]]⟩] ∧
  (runAff lifeAff [.entries (.list [⟨1, 1, [[7]]⟩]), .dimension 2, .dimension 3]).p = some 2 := by
  decide +kernel


example : (runAff lifeAff [.evaluate (.scalar 3), .clear, .entries (.list [⟨1, 1, [[2]]⟩])]).p = none ∧
    ((runAff lifeAff [.evaluate (.scalar 3), .clear, .entries (.list [⟨1, 1, [[2]]⟩])]).evaluate (.vec [3, 5])).2 =
      .ok ⟨.lin, some ⟨1, 1, [[6]]⟩⟩ := by
  decide +kernel

end Opinf
