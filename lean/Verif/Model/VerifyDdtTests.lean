import Verif.Model.VerifyDdt
import Mathlib.Analysis.Complex.Trigonometric

/-!
# The test problems of `DerivativeEstimatorTemplate.verify`

/repo/src/opinf/ddt/_base.py:43-74. The functions are those of real analysis instead of their floating point
approximations.
-/

namespace Opinf

/-- `__tests`: _base.py:43-74. -/
noncomputable def ddtTests : List (DdtTest ℝ) := [
  ⟨fun t => t, fun _ => 1⟩,
  ⟨fun t => t ^ 4 - t ^ 3 / 3, fun t => 4 * t ^ 3 - t ^ 2⟩,
  ⟨Real.sin, Real.cos⟩,
  ⟨Real.exp, Real.exp⟩,
  ⟨fun t => 1 / (t + 1), fun t => -1 / (t + 1) ^ 2⟩,
  ⟨fun t => t - t ^ 3 + Real.cos t - Real.exp (t / 2),
    fun t => 1 - 3 * t ^ 2 - Real.sin t - Real.exp (t / 2) / 2⟩]

end Opinf
