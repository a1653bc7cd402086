import Verif.Model.VerifyLift
import Verif.Props.ProjectionError
import Verif.Props.DdtCall
import Verif.Props.Lift

/-!
# C93: `verify()` of lifting maps

What acceptance means for an arbitrary lifting map (`C93_accepted_iff`), and what `verify()` does for the
lifting maps of the library.
-/

namespace Opinf

open List

variable {K : Type} [Field K] [LinearOrder K] [IsStrictOrderedRing K]

/-! ### What acceptance means -/

/-- The relative difference of two arrays does not exceed `tol`, without a quotient. -/
def RelClose (tol : K) (E F : Snap K) : Prop := ∃ G, E.minus F = .ok G ∧ G.energy ≤ tol ^ 2 * F.energy

theorem compareRel_iff {sqrt : K → K} (hs : SquareRoot sqrt) {tol : K} (ht : 0 ≤ tol) {E F : Snap K} :
    compareRel sqrt tol E F = .ok () ↔ RelClose tol E F := by
  have hn : ∀ Y : Snap K, 0 ≤ Y.norm sqrt ∧ Y.norm sqrt ^ 2 = Y.energy := fun Y => by
    rw [norm_energy]
    exact hs _ (energy_nonneg Y)
  simp only [compareRel, RelClose, bind, Except.bind]
  cases h1 : E.minus F with
  | error e => exact ⟨fun h => by (cases h), fun ⟨G, h, _⟩ => by cases h⟩
  | ok G =>
    have e : (∃ G', (Except.ok G : Except Err (Snap K)) = .ok G' ∧ G'.energy ≤ tol ^ 2 * F.energy) ↔
        G.norm sqrt ≤ tol * F.norm sqrt := by
      rw [← sq_le_sq₀ (hn G).1 (mul_nonneg ht (hn F).1), mul_pow, (hn G).2, (hn F).2]
      exact ⟨fun ⟨G', h, hh⟩ => by cases h; exact hh, fun h => ⟨G, rfl, h⟩⟩
    rw [e]
    simp only [ratio]
    by_cases hF : F.norm sqrt = 0
    · rw [if_pos hF, hF, mul_zero]
      by_cases hG : G.norm sqrt = 0
      · rw [if_pos hG, hG]
        exact ⟨fun _ => le_refl _, fun _ => rfl⟩
      · rw [if_neg hG]
        exact ⟨fun h => by (cases h), fun h => absurd (le_antisymm h (hn G).1) hG⟩
    · rw [if_neg hF, ← div_le_iff₀ (lt_of_le_of_ne (hn F).1 (Ne.symm hF)), ← not_lt]
      by_cases hlt : tol < G.norm sqrt / F.norm sqrt
      · simp [Val.exceeds, hlt, insist]
      · simp [Val.exceeds, hlt, insist]

/-- The lifted states have as many columns as the states, and they are mapped back to the states, up to the
tolerances of `np.allclose`. -/
def LiftI.Recovers (I : LiftI K) (Y L : Snap K) : Prop :=
  I.lift Y = .ok L ∧ (∃ k, L.cols = some k ∧ Y.cols = some k) ∧
    ∃ U, I.unlift L = .ok U ∧ sameDims U Y = true ∧ U.Near Y

/-- `lift_ddts` agrees with finite differences of the lifted states, relatively up to `tol`. -/
def LiftI.Consistent (I : LiftI K) (tol : K) (t : DdtVal K) (Y L : Snap K) : Prop :=
  ∃ D E F, ddtCall Y [t] [] = .ok D ∧ I.liftDdts Y D = .ok E ∧ sameDims E L = true ∧ ddtCall L [t] [] = .ok F ∧
    RelClose tol E F

theorem shapeSecond_iff {Y : Snap K} {k : Nat} : Y.shapeSecond = .ok k ↔ Y.cols = some k := by
  cases Y <;> simp [Snap.shapeSecond, Snap.cols]

theorem insist_iff {b : Bool} : insist b = .ok () ↔ b = true := by
  cases b <;> simp [insist]

theorem verifyUnlift_iff (I : LiftI K) (Y L : Snap K) : I.verifyUnlift Y = .ok L ↔ I.Recovers Y L := by
  constructor
  · intro h
    simp only [LiftI.verifyUnlift, bind, Except.bind, pure, Except.pure] at h
    cases h1 : I.lift Y with
    | error e => simp only [h1] at h; cases h
    | ok L' =>
    simp only [h1] at h
    cases h2 : L'.shapeSecond with
    | error e => simp only [h2] at h; cases h
    | ok k1 =>
    simp only [h2] at h
    cases h3 : Y.shapeSecond with
    | error e => simp only [h3] at h; cases h
    | ok k2 =>
    simp only [h3] at h
    cases h4 : insist (k1 == k2) with
    | error e => simp only [h4] at h; cases h
    | ok u =>
    simp only [h4] at h
    cases h5 : I.unlift L' with
    | error e => simp only [h5] at h; cases h
    | ok U =>
    simp only [h5] at h
    cases h6 : insist (sameDims U Y) with
    | error e => simp only [h6] at h; cases h
    | ok u =>
    simp only [h6] at h
    cases h7 : insist (allClose U Y) with
    | error e => simp only [h7] at h; cases h
    | ok u =>
    simp only [h7, Except.ok.injEq] at h
    subst h
    have h4 : k1 = k2 := by simpa using insist_iff.1 h4
    subst h4
    exact ⟨h1, ⟨k1, shapeSecond_iff.1 h2, shapeSecond_iff.1 h3⟩, U, h5, insist_iff.1 h6,
      (allClose_iff U Y).1 (insist_iff.1 h7)⟩
  · rintro ⟨h1, ⟨k, h2, h3⟩, U, h5, h6, h7⟩
    simp only [LiftI.verifyUnlift, h1, shapeSecond_iff.2 h2, shapeSecond_iff.2 h3, h5, h6, (allClose_iff U Y).2 h7,
      bind, Except.bind, pure, Except.pure, beq_self_eq_true, insist, if_true]

theorem verifyEstimates_iff {sqrt : K → K} (hs : SquareRoot sqrt) {tol : K} (ht : 0 ≤ tol) (I : LiftI K)
    (t : DdtVal K) (Y L : Snap K) : I.verifyEstimates sqrt tol t Y L = .ok () ↔ I.Consistent tol t Y L := by
  constructor
  · intro h
    simp only [LiftI.verifyEstimates, bind, Except.bind] at h
    cases h1 : ddtCall Y [t] [] with
    | error e => simp only [h1] at h; cases h
    | ok D =>
    simp only [h1] at h
    cases h2 : I.liftDdts Y D with
    | error e => simp only [h2] at h; cases h
    | ok E =>
    simp only [h2] at h
    cases h3 : insist (sameDims E L) with
    | error e => simp only [h3] at h; cases h
    | ok u =>
    simp only [h3] at h
    cases h4 : ddtCall L [t] [] with
    | error e => simp only [h4] at h; cases h
    | ok F =>
    simp only [h4] at h
    exact ⟨D, E, F, h1, h2, insist_iff.1 h3, h4, (compareRel_iff hs ht).1 h⟩
  · rintro ⟨D, E, F, h1, h2, h3, h4, h5⟩
    simp only [LiftI.verifyEstimates, h1, h2, h3, h4, bind, Except.bind, insist, if_true]
    exact (compareRel_iff hs ht).2 h5

/-- C93: `verify(states, t, tol)` accepts a lifting map exactly if the states are recovered and, unless `lift_ddts`
is not implemented, `t` is given and `lift_ddts` is consistent with finite differences for these states. -/
theorem C93_accepted_iff {sqrt : K → K} (hs : SquareRoot sqrt) {tol : K} (ht : 0 ≤ tol) (I : LiftI K)
    (t : Option (DdtVal K)) (Y : Snap K) : I.verify sqrt tol t Y = .ok () ↔ ∃ L, I.Recovers Y L ∧
      (I.liftDdts Y Y = .error .notImplemented ∨
        (∃ W, I.liftDdts Y Y = .ok W) ∧ ∃ t', t = some t' ∧ I.Consistent tol t' Y L) := by
  constructor
  · intro h
    simp only [LiftI.verify, bind, Except.bind] at h
    cases h1 : I.verifyUnlift Y with
    | error e => simp only [h1] at h; cases h
    | ok L =>
    simp only [h1] at h
    refine ⟨L, (verifyUnlift_iff I Y L).1 h1, ?_⟩
    unfold LiftI.verifyLiftDdts at h
    split at h
    · rename_i h2; exact .inl h2
    · cases h
    · cases h
    · rename_i W t' h2
      exact .inr ⟨⟨W, h2⟩, t', rfl, (verifyEstimates_iff hs ht I t' Y L).1 h⟩
  · rintro ⟨L, h1, h2⟩
    simp only [LiftI.verify, (verifyUnlift_iff I Y L).2 h1, bind, Except.bind]
    rcases h2 with h2 | ⟨⟨W, h2⟩, t', rfl, h3⟩
    · simp only [LiftI.verifyLiftDdts, h2]
    · simp only [LiftI.verifyLiftDdts, h2]
      exact (verifyEstimates_iff hs ht I t' Y L).2 h3

/-- C93: for a lifting map that recovers the states and implements `lift_ddts`, a call without a time domain
raises ValueError. -/
theorem C93_time_required (sqrt : K → K) (tol : K) (I : LiftI K) {Y L W : Snap K} (h : I.Recovers Y L)
    (hW : I.liftDdts Y Y = .ok W) : I.verify sqrt tol none Y = .error .value := by
  simp only [LiftI.verify, (verifyUnlift_iff I Y L).2 h, bind, Except.bind, LiftI.verifyLiftDdts, hW]

/-- C93: a lifting map that does not recover the states, although the number of columns and the shape fit, is refused
with VerificationError, whatever `t` and `tol`. -/
theorem C93_not_recovered (sqrt : K → K) (tol : K) (I : LiftI K) (t : Option (DdtVal K)) {Y L U : Snap K} {k : Nat}
    (h1 : I.lift Y = .ok L) (hL : L.cols = some k) (hY : Y.cols = some k) (hU : I.unlift L = .ok U)
    (hn : ¬ U.Near Y) : I.verify sqrt tol t Y = .error .verification := by
  have : I.verifyUnlift Y = .error .verification := by
    simp only [LiftI.verifyUnlift, h1, shapeSecond_iff.2 hL, shapeSecond_iff.2 hY, hU, bind, Except.bind,
      beq_self_eq_true, insist, if_true]
    by_cases h6 : sameDims U Y = true
    · have h7 : ¬ allClose U Y = true := fun h => hn ((allClose_iff U Y).1 h)
      simp only [h6, if_true, h7, Bool.false_eq_true, if_false]
    · simp only [h6, Bool.false_eq_true, if_false]
  simp only [LiftI.verify, this, bind, Except.bind]

/-- C93: one-dimensional states cannot be verified (IndexError) if they can be lifted. -/
theorem C93_vector_refused (sqrt : K → K) (tol : K) (I : LiftI K) (t : Option (DdtVal K)) (xs : List K) {L : Snap K}
    (h : I.lift (.vec xs) = .ok L) : I.verify sqrt tol t (.vec xs) = .error .index := by
  have : I.verifyUnlift (.vec xs) = .error .index := by
    simp only [LiftI.verifyUnlift, h, bind, Except.bind]
    cases L <;> rfl
  simp only [LiftI.verify, this, bind, Except.bind]

end Opinf
