import Verif.Model.InterpLife
import Verif.Props.Interp

/-!
# C133: what an interpolated operator object is after any calls
-/

namespace Opinf

open List

variable {K : Type}

/-- The outcome of asking the library to interpolate the entries `As` at the training parameters `P`. -/
def libOutcome [LinearOrder K] (lib : ItpLib K) (c : Option ItpClass) (P : PArr K) (As : List (Mat K)) :
    Except Err Unit :=
  lib.build (itpData c P As).1 (itpData c P As).2.1 (itpData c P As).2.2

/-- What always holds of an interpolated operator: entries come with training parameters, and an
interpolator is one the library accepted, of the recorded class, made at the training parameters of the
operator. -/
structure Interp.Sound [LinearOrder K] (lib : ItpLib K) (t : Interp K) : Prop where
  params : t.entries.isSome → t.params.isSome
  made : ∀ d, t.itp = some d → t.entries.isSome ∧ t.cls = some d.1 ∧
    ∃ c P As, t.params = some P ∧ d = itpData c P As ∧ libOutcome lib c P As = .ok ()

/-- The interpolator interpolates the entries the operator has. -/
def Interp.Current [LinearOrder K] (t : Interp K) : Prop :=
  (∀ As, t.entries = some As → ∃ c P, t.params = some P ∧ t.itp = some (itpData c P As)) ∧
  (t.entries = none → t.itp = none)

section
variable [LinearOrder K]

theorem setInterpolator_sound (lib : ItpLib K) (t : Interp K) (c : Option ItpClass) (h : t.Sound lib) :
    (t.setInterpolator lib c).1.Sound lib := by
  unfold Interp.setInterpolator
  cases he : t.entries with
  | none =>
    refine ⟨fun hs => by simp [he] at hs, fun d hd => ?_⟩
    have := (h.made d hd).1
    simp [he] at this
  | some As =>
    cases hp : t.params with
    | none => have := h.params (by simp [he]); simp [hp] at this
    | some P =>
      simp only
      cases hb : lib.build (itpData c P As).1 (itpData c P As).2.1 (itpData c P As).2.2 with
      | error e => exact h
      | ok u =>
        refine ⟨fun _ => by simp [hp], fun d hd => ?_⟩
        simp only [Option.some.injEq] at hd
        exact ⟨by simp [he], by rw [← hd], c, P, As, rfl, hd.symm, hb⟩

theorem step_sound [AddMonoid K] (lib : ItpLib K) (t : Interp K) (s : ItpStep K) (h : t.Sound lib) :
    (s.run lib t).1.Sound lib ∧ (s.run lib t).1.kind = t.kind := by
  cases s with
  | params ps =>
    simp only [ItpStep.run, Interp.setParams]
    cases hi : t.itp with
    | some d => exact ⟨by simpa using h, by simp⟩
    | none =>
      cases hP : PArr.ofPars ps with
      | error e => exact ⟨by simpa using h, by simp⟩
      | ok P => exact ⟨by simp; exact ⟨fun _ => by simp, fun d hd => by simp [hi] at hd⟩, by simp⟩
  | entries e =>
    simp only [ItpStep.run, Interp.setEntries]
    cases hp : t.params with
    | none => exact ⟨h, rfl⟩
    | some P =>
      simp only
      cases parseEntries t.kind P.length e with
      | error err => exact ⟨h, rfl⟩
      | ok As =>
        simp only
        refine ⟨setInterpolator_sound lib _ _ ⟨fun _ => by simp [hp], fun d hd => ?_⟩, ?_⟩
        · obtain ⟨_, h2, h3⟩ := h.made d hd
          rw [hp] at h3
          exact ⟨by simp, h2, h3⟩
        · simp only [Interp.setInterpolator, hp]
          cases lib.build (itpData t.cls P As).1 (itpData t.cls P As).2.1 (itpData t.cls P As).2.2 <;> rfl
  | interpolator c =>
    refine ⟨setInterpolator_sound lib t c h, ?_⟩
    simp only [ItpStep.run, Interp.setInterpolator]
    cases t.entries with
    | none => rfl
    | some As =>
      cases t.params with
      | none => rfl
      | some P =>
        simp only
        cases lib.build (itpData c P As).1 (itpData c P As).2.1 (itpData c P As).2.2 <;> rfl
  | clear => exact ⟨⟨fun hs => by simp [ItpStep.run, Interp.clear] at hs,
      fun d hd => by simp [ItpStep.run, Interp.clear] at hd⟩, rfl⟩

theorem steps_sound [AddMonoid K] (lib : ItpLib K) (steps : List (ItpStep K)) :
    ∀ t : Interp K, t.Sound lib → (runItp lib t steps).1.Sound lib ∧
      (runItp lib t steps).1.kind = t.kind := by
  induction steps with
  | nil => exact fun t h => ⟨h, rfl⟩
  | cons s steps ih =>
    intro t h
    have h1 := step_sound lib t s h
    have h2 := ih _ h1.1
    exact ⟨h2.1, h2.2.trans h1.2⟩

theorem blank_sound (lib : ItpLib K) (kind : OpKind) (c : Option ItpClass) :
    (Interp.blank kind c : Interp K).Sound lib :=
  ⟨fun h => by simp [Interp.blank] at h, fun d h => by simp [Interp.blank] at h⟩

theorem step_current [AddMonoid K] (lib : ItpLib K) (t : Interp K) (s : ItpStep K) (h : t.Current)
    (hok : (s.run lib t).2 = .ok ()) : (s.run lib t).1.Current := by
  cases s with
  | params ps =>
    simp only [ItpStep.run, Interp.setParams] at hok ⊢
    cases hi : t.itp with
    | some d => simp [hi] at hok
    | none =>
      cases hP : PArr.ofPars ps with
      | error e => simp [hi, hP] at hok
      | ok P =>
        simp only [Option.isSome_none, Bool.false_eq_true, if_false]
        refine ⟨fun As hA => ?_, fun hA => rfl⟩
        obtain ⟨c, P', _, h2⟩ := h.1 As hA
        rw [hi] at h2
        cases h2
  | entries e =>
    simp only [ItpStep.run, Interp.setEntries] at hok ⊢
    cases hp : t.params with
    | none => simp [hp] at hok
    | some P =>
      simp only [hp] at hok ⊢
      cases hpe : parseEntries t.kind P.length e with
      | error err => simp [hpe] at hok
      | ok As =>
        simp only [hpe, Interp.setInterpolator, hp] at hok ⊢
        cases hb : lib.build (itpData t.cls P As).1 (itpData t.cls P As).2.1 (itpData t.cls P As).2.2 with
        | error e => simp [hb] at hok
        | ok u =>
          refine ⟨fun As' hA => ?_, fun hA => by simp at hA⟩
          simp only [Option.some.injEq] at hA
          subst hA
          exact ⟨t.cls, P, rfl, rfl⟩
  | interpolator c =>
    simp only [ItpStep.run, Interp.setInterpolator] at hok ⊢
    cases he : t.entries with
    | none => exact ⟨fun As hA => by simp [he] at hA, fun _ => h.2 he⟩
    | some As =>
      simp only [he] at hok ⊢
      cases hp : t.params with
      | none => simp [hp] at hok
      | some P =>
        simp only [hp] at hok ⊢
        cases hb : lib.build (itpData c P As).1 (itpData c P As).2.1 (itpData c P As).2.2 with
        | error e => simp [hb] at hok
        | ok u =>
          refine ⟨fun As' hA => ?_, fun hA => by simp [he] at hA⟩
          simp only [he, Option.some.injEq] at hA
          subst hA
          exact ⟨c, P, rfl, rfl⟩
  | clear => exact ⟨fun As hA => by simp [ItpStep.run, Interp.clear] at hA, fun _ => rfl⟩

theorem steps_current [AddMonoid K] (lib : ItpLib K) (steps : List (ItpStep K)) :
    ∀ t : Interp K, t.Current → (∀ x ∈ (runItp lib t steps).2, x = .ok ()) →
      (runItp lib t steps).1.Current := by
  induction steps with
  | nil => exact fun t h _ => h
  | cons s steps ih =>
    intro t h hok
    simp only [runItp, mem_cons, forall_eq_or_imp] at hok
    exact ih _ (step_current lib t s h hok.1) hok.2

/-! ### C133 -/

/-- **C133 (any calls).** Whatever calls were made on a new interpolated operator, raising or not: it has
training parameters if it has entries; an interpolator is there only with entries, its class is the
recorded one, and it was accepted by the library for the training parameters of the operator. -/
theorem C133_any_calls [AddMonoid K] (lib : ItpLib K) (kind : OpKind) (c : Option ItpClass)
    (steps : List (ItpStep K)) :
    (runItp lib (Interp.blank kind c) steps).1.Sound lib ∧
    (runItp lib (Interp.blank kind c) steps).1.kind = kind :=
  steps_sound lib steps _ (blank_sound lib kind c)

/-- **C133 (calls that succeed).** If none of the calls raised, there is an interpolator exactly if there
are entries, and it interpolates these entries. -/
theorem C133_successful_calls [AddMonoid K] (lib : ItpLib K) (kind : OpKind) (c : Option ItpClass)
    (steps : List (ItpStep K))
    (hok : ∀ x ∈ (runItp lib (Interp.blank kind c) steps).2, x = .ok ()) :
    (runItp lib (Interp.blank kind c) steps).1.Current :=
  steps_current lib steps _ ⟨fun As h => by simp [Interp.blank] at h, fun _ => rfl⟩ hok

/-- **C133 (changing the interpolator).** After any calls: without entries `set_interpolator` records the
class and cannot fail. With entries it raises exactly what the library raises, changing nothing, and else
replaces interpolator and class by those for the current entries, whatever the class was before. -/
theorem C133_set_interpolator [AddMonoid K] (lib : ItpLib K) (kind : OpKind) (c₀ : Option ItpClass)
    (steps : List (ItpStep K)) (c : Option ItpClass) (t : Interp K)
    (ht : (runItp lib (Interp.blank kind c₀) steps).1 = t) :
    (t.entries = none → t.setInterpolator lib c = (⟨t.kind, t.params, t.p, none, c, t.itp⟩, .ok ())) ∧
    (∀ As, t.entries = some As → ∃ P, t.params = some P ∧
      (∀ e, libOutcome lib c P As = .error e → t.setInterpolator lib c = (t, .error e)) ∧
      (libOutcome lib c P As = .ok () → t.setInterpolator lib c
        = (⟨t.kind, some P, t.p, some As, some (itpData c P As).1, some (itpData c P As)⟩, .ok ()))) := by
  have hs := (C133_any_calls lib kind c₀ steps).1
  rw [ht] at hs
  constructor
  · intro he
    unfold Interp.setInterpolator
    obtain ⟨k, pa, p, e, cl, i⟩ := t
    simp only at he
    subst he
    rfl
  · intro As he
    obtain ⟨P, hp⟩ := Option.isSome_iff_exists.mp (hs.params (by simp [he]))
    refine ⟨P, hp, fun e hb => ?_, fun hb => ?_⟩
    · unfold libOutcome at hb
      simp only [Interp.setInterpolator, he, hp, hb]
    · unfold libOutcome at hb
      simp only [Interp.setInterpolator, he, hp, hb]

/-- **C133 (the class may be given early or late).** Naming the interpolator class before the entries are
set gives the operator made by the constructor with that class; naming it afterwards gives the same
operator again, provided the library also accepts the class used in between. -/
theorem C133_early_or_late [Field K] (lib : ItpLib K) (kind : OpKind) (ps : List (Par K)) (P : PArr K)
    (hps : PArr.ofPars ps = .ok P) (c c' : Option ItpClass) (As : List (Mat K)) (r m : Nat) (hr : 0 < r)
    (hfit : ∀ A ∈ As, kind.Fits A r m) (hlen : As.length = P.length)
    (hc : libOutcome lib c P As = .ok ()) (hc' : libOutcome lib c' P As = .ok ()) :
    ∃ t, Interp.make lib kind (some ps) (some (.list As)) c = .ok t ∧
      (runItp lib (Interp.blank kind c') [.params ps, .interpolator c, .entries (.list As)]).1 = t ∧
      (runItp lib (Interp.blank kind c') [.params ps, .entries (.list As), .interpolator c]).1 = t := by
  have hP := (ofPars_wf hps).1
  unfold libOutcome at hc hc'
  refine ⟨interpOf kind c P As, ?_, ?_, ?_⟩
  · rw [Interp.make_eq lib kind P hP c r m hr As hlen hfit ps hps, hc]
  · simp only [runItp, ItpStep.run, Interp.setParams, Interp.blank, hps, Option.isSome_none,
      Bool.false_eq_true, if_false, Interp.setInterpolator]
    rw [Interp.setEntries_eq lib _ P rfl r m hr As hlen hfit]
    simp only [hc]
    rfl
  · simp only [runItp, ItpStep.run, Interp.setParams, Interp.blank, hps, Option.isSome_none,
      Bool.false_eq_true, if_false]
    rw [Interp.setEntries_eq lib _ P rfl r m hr As hlen hfit]
    simp only [hc', Interp.setInterpolator, hc]
    rfl

/-- **C133 (evaluation).** What `evaluate` does in every state of the object: `AttributeError` without
entries; then `RuntimeError` without a parameter dimension; then `ValueError` for a parameter of another
dimension; then `TypeError` without an interpolator; else the operator made of what the interpolator
returns. -/
theorem C133_evaluate [AddMonoid K] (lib : ItpLib K) (t : Interp K) (mu : Par K) :
    (t.entries = none → t.evaluate lib mu = .error .attribute) ∧
    (t.entries ≠ none → t.p = none → t.evaluate lib mu = .error .runtime) ∧
    (t.entries ≠ none → ∀ p, t.p = some p → mu.dim ≠ p → t.evaluate lib mu = .error .value) ∧
    (t.entries ≠ none → t.p = some mu.dim → t.itp = none → t.evaluate lib mu = .error .type) ∧
    (t.entries ≠ none → t.p = some mu.dim → ∀ c P As E, t.itp = some (c, P, As) →
      lib.eval c P As (t.unwrap mu) = .ok E → t.kind.setEntries E = .ok E →
      t.evaluate lib mu = .ok ⟨t.kind, some E⟩) := by
  refine ⟨fun h => by simp [Interp.evaluate, h], fun h hp => ?_, fun h p hp hd => ?_, fun h hp hi => ?_,
    fun h hp c P As E hi hE hs => ?_⟩ <;>
  · obtain ⟨As, hA⟩ := Option.ne_none_iff_exists'.mp h
    simp_all [Interp.evaluate]

/-- **C133 (clearing).** Clearing keeps the training parameters but forgets the parameter dimension: if
entries are then set without setting the training parameters again, every evaluation raises
`RuntimeError`. -/
theorem C133_cleared [AddMonoid K] (lib : ItpLib K) (t : Interp K) (e : EntArg K)
    (hok : (t.clear.setEntries lib e).2 = .ok ()) (mu : Par K) :
    (t.clear.setEntries lib e).1.evaluate lib mu = .error .runtime := by
  simp only [Interp.setEntries] at hok ⊢
  cases hp : t.clear.params with
  | none => simp [hp] at hok
  | some P =>
    simp only [hp] at hok ⊢
    cases hpe : parseEntries t.clear.kind P.length e with
    | error err => simp [hpe] at hok
    | ok As =>
      simp only [hpe, Interp.setInterpolator, hp] at hok ⊢
      cases hb : lib.build (itpData t.clear.cls P As).1 (itpData t.clear.cls P As).2.1
          (itpData t.clear.cls P As).2.2 with
      | error e => simp [hb] at hok
      | ok u => rfl

/-- **C133 (entries the library refuses).** If the library refuses the new entries, the call raises, yet
the operator keeps the new entries with the old interpolator: it evaluates as before although its
`entries` are others. -/
theorem C133_stale [AddMonoid K] (lib : ItpLib K) (t : Interp K) (P : PArr K) (hp : t.params = some P)
    (old : List (Mat K)) (hold : t.entries = some old) (e : EntArg K) (As : List (Mat K))
    (hpe : parseEntries t.kind P.length e = .ok As) (err : Err)
    (hb : libOutcome lib t.cls P As = .error err) :
    (t.setEntries lib e).2 = .error err ∧ (t.setEntries lib e).1.entries = some As ∧
    (t.setEntries lib e).1.itp = t.itp ∧
    ∀ mu, (t.setEntries lib e).1.evaluate lib mu = t.evaluate lib mu := by
  unfold libOutcome at hb
  have h : t.setEntries lib e = ({ t with entries := some As }, .error err) := by
    simp only [Interp.setEntries, hp, hpe, Interp.setInterpolator, hb]
  rw [h]
  refine ⟨rfl, rfl, rfl, fun mu => ?_⟩
  simp only [Interp.evaluate, hold]
  rfl

/-- **C133 (loading).** `load` uses the class that is passed; without one, the saved class if
`scipy.interpolate` has it (else `ValueError`), or the default if none was saved. -/
theorem C133_load [AddMonoid K] (lib : ItpLib K) (kind : OpKind) (f : InterpFile K) (hk : f.kind = kind) :
    (∀ c, Interp.load lib kind f (some c)
      = Interp.make lib kind (f.params.map PArr.toPars) (f.entries.map .list) (some c)) ∧
    (f.cls = none → Interp.load lib kind f none
      = Interp.make lib kind (f.params.map PArr.toPars) (f.entries.map .list) none) ∧
    (∀ c, f.cls = some c → c.inScipy = true → Interp.load lib kind f none
      = Interp.make lib kind (f.params.map PArr.toPars) (f.entries.map .list) (some c)) ∧
    (∀ c, f.cls = some c → c.inScipy = false → Interp.load lib kind f none = .error .value) := by
  refine ⟨fun c => ?_, fun h => ?_, fun c h hs => ?_, fun c h hs => ?_⟩ <;>
    simp_all [Interp.load, loadClass]

end

/-! ### The hypotheses are satisfiable -/

/-- A library that refuses negative first values and otherwise looks the parameter up. -/
def pickyLib : ItpLib ℚ where
  build _ _ As := if (As.any fun A => A.rows.any fun r => r.any fun x => decide (x < 0)) then .error .value
    else .ok ()
  eval := toyLib.eval

/-- **C133 (concrete witness).** Entries 10 and 20 at the parameters 1 and 2 are replaced by entries with a
negative value: the call raises, the entries are the new ones, and the operator evaluates to the old. -/
theorem C133_stale_witness :
    let t := (runItp pickyLib (Interp.blank .lin none) [.params [.scalar 1, .scalar 2],
      .entries (.list [⟨1, 1, [[10]]⟩, ⟨1, 1, [[20]]⟩]),
      .entries (.list [⟨1, 1, [[-1]]⟩, ⟨1, 1, [[20]]⟩])]).1
    t.entries = some [⟨1, 1, [[-1]]⟩, ⟨1, 1, [[20]]⟩] ∧
    t.evaluate pickyLib (.scalar 1) = .ok ⟨.lin, some ⟨1, 1, [[10]]⟩⟩ := by decide +kernel

-- calls that all succeed, an early class, and clearing
example : let x := runItp toyLib (Interp.blank .lin none) [.params [.scalar 2, .scalar 1],
      .interpolator (some .linearND), .entries (.list [⟨1, 1, [[20]]⟩, ⟨1, 1, [[10]]⟩])]
    (∀ r ∈ x.2, r = .ok ()) ∧ x.1.evaluate toyLib (.scalar 2) = .ok ⟨.lin, some ⟨1, 1, [[20]]⟩⟩ := by
  decide +kernel
example : let x := runItp toyLib (Interp.blank .lin none) [.params [.scalar 1, .scalar 2],
      .entries (.list [⟨1, 1, [[20]]⟩, ⟨1, 1, [[10]]⟩]), .clear,
      .entries (.list [⟨1, 1, [[20]]⟩, ⟨1, 1, [[10]]⟩])]
    (∀ r ∈ x.2, r = .ok ()) ∧ x.1.evaluate toyLib (.scalar 2) = .error .runtime := by decide +kernel
-- both outcomes of the library, for the class given early or late
example : libOutcome toyLib none (.one [2, 1]) [⟨1, 1, [[20]]⟩, ⟨1, 1, [[10]]⟩] = .ok () ∧
    libOutcome toyLib (some .cubic) (.one [2, 1]) [⟨1, 1, [[20]]⟩, ⟨1, 1, [[10]]⟩] = .error .value ∧
    PArr.ofPars [.scalar 2, .vec [1]] = (.error .value : Except Err (PArr ℚ)) ∧
    PArr.ofPars [.scalar 2, .scalar 1] = (.ok (.one [2, 1]) : Except Err (PArr ℚ)) := by decide +kernel
-- a saved class that is not in scipy
example : Interp.load toyLib .lin ⟨.lin, some (.other 7 false), some (.one [1, 2]),
    some [⟨1, 1, [[20]]⟩, ⟨1, 1, [[10]]⟩]⟩ none = .error .value := by decide +kernel

end Opinf
