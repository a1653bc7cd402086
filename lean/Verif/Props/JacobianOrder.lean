import Verif.Props.ModelJacobian
import Verif.Props.Accessors

/-!
# C106: the order of the operators does not matter for the Jacobian
-/

namespace Opinf

open List

variable {K S : Type}

/-- **C106** (Jacobian). Trained models with the same operators in different orders have the same Jacobian, at all states
and inputs. -/
theorem C106_order_jacobian [Field K] [CharZero K] (M N : Model K S) (r m : Nat) (hM : M.Trained r m) (hN : N.Trained r m)
    (h : M.ops.Perm N.ops) (hi : M.hasInputs = N.hasInputs) (q u : List K) (hq : q.length = r)
    (hu : M.hasInputs = true → u.length = m) : M.jacobian q u = N.jacobian q u := by
  obtain ⟨J, hJ, j1, j2, -⟩ := C78_jacobian_is_derivative M r m hM q u q hq hu hq
  rw [hJ]
  refine (C78_jacobian_unique N r m hN q u hq (fun hx => hu (hi.trans hx)) J j1 j2 fun d hd => ?_).symm
  obtain ⟨J', hJ', -, -, R2, R3, R4, k2, k3, k4, hR⟩ := C78_jacobian_is_derivative M r m hM q u d hq hu hd
  obtain rfl : J = J' := Except.ok.inj (hJ.symm.trans hJ')
  refine ⟨R2, R3, R4, k2, k3, k4, fun t => ?_⟩
  obtain ⟨a0, a1, e0, e1, e2⟩ := hR t
  exact ⟨a0, a1, (C106_order_rhs M N h q (some u) a0).1 e0, (C106_order_rhs M N h _ (some u) a1).1 e1, e2⟩

/-- The example model with its operators in the opposite order. -/
def exTrainedRev : Model ℚ (Option (Nat × Nat)) := { exTrained with slots := exTrained.slots.reverse }

example : exTrainedRev.jacobian [1, 2] [3] = .ok [[1, 3], [2, 4]] := by decide +kernel

example : exTrained.ops.Perm exTrainedRev.ops := ((reverse_perm _).map _).symm

end Opinf
