import Verif.Props.ParamMade

/-!
# C57, C58: the dimensions parametric operators report

Specification: all arrays of the operator have the shape that belongs to its class and the dimensions.
-/

namespace Opinf

open List

variable {K : Type}

/-- The arrays an operator holds. -/
def POp.arrays : POp K → Option (List (Mat K))
  | .np o => o.entries.map fun E => [E]
  | .aff a => a.entries
  | .itp t => t.entries

theorem inputDim_of_fits {k : OpKind} {E : Mat K} {r m : Nat} (hr : 0 < r) (h : k.Fits E r m) :
    Op.inputDim ⟨k, some E⟩ = if k.hasInputs then some m else none := by
  obtain ⟨-, h1, h2⟩ := h
  cases k with
  | stateInp =>
    simp only [OpKind.dim] at h2
    simp [Op.inputDim, OpKind.hasInputs, h1, h2, Nat.mul_div_cancel_left m hr]
  | inp =>
    simp only [OpKind.dim] at h2
    simp [Op.inputDim, OpKind.hasInputs, h2]
  | _ => rfl

theorem first_of_arrays {o : POp K} {As : List (Mat K)} (h : o.arrays = some As) (hne : As ≠ []) :
    ∃ E ∈ As, o.first = some E ∧ o.isCal = true := by
  obtain ⟨E, Es, rfl⟩ := exists_cons_of_ne_nil hne
  refine ⟨E, mem_cons_self, ?_⟩
  cases o with
  | np o =>
    simp only [POp.arrays] at h
    rcases hE : o.entries with _ | F
    · rw [hE] at h; cases h
    · rw [hE] at h
      cases h
      exact ⟨hE, by simp [POp.isCal, hE]⟩
  | aff a => exact ⟨by simp [POp.first, show a.entries = _ from h], by simp [POp.isCal, show a.entries = _ from h]⟩
  | itp t => exact ⟨by simp [POp.first, show t.entries = _ from h], by simp [POp.isCal, show t.entries = _ from h]⟩

/-- **C57** (operators of parametric models). An operator whose arrays all fit the state dimension `r` and the input
dimension `m` reports `r`, and `m` if it acts on inputs. -/
theorem C57_operator_dimensions (o : POp K) (As : List (Mat K)) (r m : Nat) (hr : 0 < r) (h : o.arrays = some As)
    (hne : As ≠ []) (hf : ∀ A ∈ As, o.kind.Fits A r m) :
    o.isCal = true ∧ o.stateDim = some r ∧ o.inputDim = if o.kind.hasInputs then some m else none := by
  obtain ⟨E, hE, h1, h2⟩ := first_of_arrays h hne
  refine ⟨h2, ?_, ?_⟩
  · rw [POp.stateDim, h1, Option.map_some, (hf E hE).2.1]
  · rw [POp.inputDim, h1, inputDim_of_fits hr (hf E hE)]

/-- **C57** (operators without arrays). An operator without arrays counts as one to be learned and reports no dimensions. -/
theorem C57_operator_unset (o : POp K) (h : o.arrays = none) :
    o.isCal = false ∧ o.stateDim = none ∧ o.inputDim = none := by
  have h1 : o.first = none ∧ o.isCal = false := by
    cases o with
    | np o =>
      simp only [POp.arrays, Option.map_eq_none_iff] at h
      exact ⟨h, by simp [POp.isCal, h]⟩
    | aff a => exact ⟨by simp [POp.first, show a.entries = _ from h], by simp [POp.isCal, show a.entries = _ from h]⟩
    | itp t => exact ⟨by simp [POp.first, show t.entries = _ from h], by simp [POp.isCal, show t.entries = _ from h]⟩
  refine ⟨h1.2, ?_, ?_⟩
  · rw [POp.stateDim, h1.1]; rfl
  · rw [POp.inputDim, h1.1]; rfl

/-- **C58** (dimensions). The operator that an operator evaluates to has the dimensions the operator reports. -/
theorem C58_evaluated_dimensions [Semiring K] (lib : ItpLib K) (o : POp K) (As : List (Mat K)) (r m : Nat) (hr : 0 < r)
    (h : o.arrays = some As) (hne : As ≠ []) (hf : ∀ A ∈ As, o.kind.Fits A r m) (mu : Par K) (op : Op K)
    (he : o.EvalsTo lib mu r m op) : op.entries.map Mat.nrows = o.stateDim ∧ op.inputDim = o.inputDim := by
  obtain ⟨-, h1, h2⟩ := C57_operator_dimensions o As r m hr h hne hf
  obtain ⟨-, e1, E, e2, e3⟩ := he
  obtain ⟨k, en⟩ := op
  simp only at e1 e2
  subst e1 e2
  exact ⟨by rw [h1, Option.map_some, e3.2.1], by rw [h2, inputDim_of_fits hr e3]⟩

/-- **C58** (what evaluation leaves behind). Evaluating an operator changes neither its class nor its arrays. An affine operator
with arrays that does not know its parameter dimension learns it from the first parameter it is evaluated at; nothing else
changes. -/
theorem C58_learned_dimension [Semiring K] (lib : ItpLib K) (o : POp K) (mu : Par K) :
    (o.evaluate lib mu).1.kind = o.kind ∧ (o.evaluate lib mu).1.arrays = o.arrays ∧
    (o.evaluate lib mu).1.isParam = o.isParam ∧
    (o.evaluate lib mu).1.paramDim = (match o with
      | .aff a => if a.p = none ∧ a.entries ≠ none then some mu.dim else a.p
      | o => o.paramDim) := by
  cases o with
  | np o => exact ⟨rfl, rfl, rfl, rfl⟩
  | itp t => exact ⟨rfl, rfl, rfl, rfl⟩
  | aff a =>
    have e : (a.evaluate mu).1 = if a.entries = none then a else a.learnDim mu := by
      unfold Affine.evaluate
      cases a.entries with
      | none => rfl
      | some As =>
        simp only
        by_cases hd : some mu.dim ≠ (a.learnDim mu).p
        · rw [if_pos hd]; rfl
        · rw [if_neg hd]; rfl
    simp only [POp.evaluate, POp.kind, POp.arrays, POp.paramDim, POp.isParam]
    rw [e]
    by_cases hE : a.entries = none
    · simp [hE]
    · rw [if_neg hE]
      unfold Affine.learnDim
      by_cases hp : a.p = none
      · simp [hp, hE]
      · have : a.p.isNone = false := by simpa [Option.isNone_eq_false_iff, Option.isSome_iff_ne_none] using hp
        simp [this, hp]

/-- A state-input operator affine in the parameter, with two terms. -/
def dimEx : POp ℚ :=
  .aff ⟨.stateInp, 2, fun mu => .ok (.vec (1 :: mu.toList)), none, some [⟨2, 6, [[1, 0, 0, 0, 0, 0], [0, 1, 0, 0, 0, 0]]⟩,
    ⟨2, 6, [[0, 0, 0, 0, 0, 2], [0, 0, 0, 0, 3, 0]]⟩]⟩

example : dimEx.arrays = some [⟨2, 6, [[1, 0, 0, 0, 0, 0], [0, 1, 0, 0, 0, 0]]⟩,
      ⟨2, 6, [[0, 0, 0, 0, 0, 2], [0, 0, 0, 0, 3, 0]]⟩] ∧
    (∀ A ∈ [(⟨2, 6, [[1, 0, 0, 0, 0, 0], [0, 1, 0, 0, 0, 0]]⟩ : Mat ℚ), ⟨2, 6, [[0, 0, 0, 0, 0, 2], [0, 0, 0, 0, 3, 0]]⟩],
      dimEx.kind.Fits A 2 3) ∧ dimEx.stateDim = some 2 ∧ dimEx.inputDim = some 3 := by
  refine ⟨rfl, fun A hA => ?_, by decide +kernel, by decide +kernel⟩
  simp only [mem_cons, not_mem_nil, or_false] at hA
  rcases hA with rfl | rfl <;> exact ⟨by decide +kernel, rfl, rfl⟩

example : ((dimEx.evaluate ⟨fun _ _ _ => .error .value, fun _ _ _ _ => .error .value⟩ (.scalar 2)).1.paramDim = some 1) := by
  decide +kernel

end Opinf
