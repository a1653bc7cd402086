import Verif.Props.VerifyDdtLimits
import Mathlib.Analysis.SpecialFunctions.Trigonometric.Deriv
import Mathlib.Analysis.SpecialFunctions.ExpDeriv
import Mathlib.Analysis.Calculus.Deriv.Inv

/-! # C97: the test problems of `verify()` -/

namespace Opinf

open List

variable {K : Type}

/-- **C97, the test problems.** The six test problems consist of a function and its derivative, at all positive times
and therefore at all times of the test domains. -/
theorem C97_test_derivatives : ddtTests.length = 6 ∧
    ∀ p ∈ ddtTests, ∀ t : ℝ, 0 < t → HasDerivAt p.fn (p.deriv t) t := by
  refine ⟨rfl, ?_⟩
  intro p hp t ht
  simp only [ddtTests, mem_cons, not_mem_nil, or_false] at hp
  rcases hp with rfl | rfl | rfl | rfl | rfl | rfl
  · exact hasDerivAt_id t
  · have h := ((hasDerivAt_pow 4 t).sub ((hasDerivAt_pow 3 t).div_const 3))
    exact h.congr_deriv (by norm_num)
  · exact Real.hasDerivAt_sin t
  · exact Real.hasDerivAt_exp t
  · have h1 : t + 1 ≠ 0 := by positivity
    have h := ((hasDerivAt_id t).add_const (1 : ℝ)).inv h1
    have h2 : (fun t : ℝ => 1 / (t + 1)) = (fun x => id x + 1)⁻¹ := by
      funext x
      simp
    show HasDerivAt (fun t : ℝ => 1 / (t + 1)) (-1 / (t + 1) ^ 2) t
    rw [h2]
    exact h
  · have h := (((hasDerivAt_id t).sub (hasDerivAt_pow 3 t)).add (Real.hasDerivAt_cos t)).sub
      (((hasDerivAt_id t).div_const 2).exp)
    exact h.congr_deriv (by simp; ring)

/-- **C97.** A `NonuniformFiniteDifferencer` raises `DimensionalityError` in `verify()` and in `estimate()` if the number
of snapshots is not the number of times, and it is left as it was. -/
theorem C97_nonuniform_refused [Field K] [LinearOrder K] (sqrt : K → K) (tests : List (DdtTest K)) (t : List K)
    (Q U : Mat K) (h : Q.ncols ≠ t.length) :
    (∀ V, nonuniformEst ⟨t, ()⟩ Q V = .error .dimensionality) ∧
    estVerify sqrt nonuniformEst tests ⟨t, ()⟩ Q U = (⟨t, ()⟩, .error .dimensionality) := by
  have h1 : ∀ V, nonuniformEst ⟨t, ()⟩ Q V = .error .dimensionality := fun V => by
    simp only [nonuniformEst]
    rw [if_pos h]
  refine ⟨h1, ?_⟩
  have h2 : estShapes nonuniformEst ⟨t, ()⟩ Q U = .error .dimensionality := by
    simp [estShapes, h1, bind, Except.bind]
  simp only [estVerify, estVerifyOn, h2]

example : nonuniformEst ⟨[0, 1, 3], ()⟩ (⟨1, 2, [[5, 6]]⟩ : Mat ℚ) none = .error .dimensionality :=
  (C97_nonuniform_refused id [] [0, 1, 3] _ ⟨1, 3, [[1, 2, 3]]⟩ (by decide)).1 none

end Opinf
