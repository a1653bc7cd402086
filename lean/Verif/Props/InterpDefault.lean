import Verif.Props.Interp

/-!
# C11: operators with the default interpolator are restored without naming a class
-/

namespace Opinf

open List

variable {K : Type}

/-- The class meant for these training parameters. -/
def defaultFor : PArr K → ItpClass
  | .one _ => .cubic
  | .two _ _ => .linearND

/-- **C11** (default class). An interpolated operator constructed without an interpolator class is interpolated by
`CubicSpline` if its training parameters are scalars and by `LinearNDInterpolator` if they are vectors, and, with parameters
in increasing order in the first case, `load` restores it from its file without being given a class. -/
theorem C11_default_class [Field K] [LinearOrder K] (lib : ItpLib K) (kind : OpKind) (ps : List (Par K)) (r m : Nat)
    (hr : 0 < r) (As : List (Mat K)) (hfit : ∀ A ∈ As, kind.Fits A r m) (t : Interp K)
    (h : Interp.make lib kind (some ps) (some (.list As)) none = .ok t) :
    ∃ P, t.params = some P ∧ t.cls = some (defaultFor P) ∧
      (P.Ordered → Interp.load lib kind t.save none = .ok t) := by
  obtain ⟨P, hps, hP, hlen, e, hb⟩ := Interp.make_inv lib kind ps none r m hr As hfit t h
  have hp : t.params = some P := by rw [e]; rfl
  have hc : t.cls = some (defaultFor P) := by
    rw [e]
    cases P <;> rfl
  refine ⟨P, hp, hc, fun ho => (C11_survives_partial lib kind ps none r m hr As hfit t h (.inr fun P' hP' => ?_)).2.1 ?_⟩
  · rw [hp] at hP'
    cases hP'
    exact ho
  · intro c hcm
    rw [hc] at hcm
    cases hcm
    cases P <;> rfl

-- vector parameters: saved and restored without a class
example : (Interp.make toyLib .lin (some [.vec [1, 0], .vec [0, 2], .vec [3, 3]])
    (some (.list [⟨1, 1, [[10]]⟩, ⟨1, 1, [[20]]⟩, ⟨1, 1, [[30]]⟩])) none).bind
      (fun t => (Interp.load toyLib .lin t.save none).bind fun t' => .ok (decide (t' = t))) = (.ok true : Except Err Bool) := by
  decide +kernel

end Opinf
