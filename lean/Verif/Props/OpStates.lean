import Verif.Props.Kron

/-!
# Which states the polynomial operators accept (C03, C07)

Specification: the length of the state compared with the number of rows of the entries.
-/

namespace Opinf

open List

variable {K : Type}

/-- **C03** (states of the wrong length). With entries for at least two states, a quadratic, cubic or quartic operator raises
`IndexError` for states that are too short, and ignores the surplus entries of states that are too long. Without entries it
raises `AttributeError`. -/
theorem C03_kron_state_length [CommSemiring K] (op : KronOp K) (q : List K) :
    (op.entries = none → op.apply q = .error .attribute) ∧
    ∀ E, op.entries = some E → 2 ≤ E.nrows →
      (q.length < E.nrows → op.apply q = .error .index) ∧
      (E.nrows ≤ q.length → op.apply q = op.apply (q.take E.nrows) ∧ ∃ y, op.apply q = .ok y) := by
  refine ⟨fun h => by simp only [KronOp.apply, h], fun E hE h2 => ⟨fun h => ?_, fun h => ?_⟩⟩
  · simp only [KronOp.apply, hE, if_neg (show ¬ E.nrows = 1 by omega), if_pos h]
  · have e : ∀ q' : List K, E.nrows ≤ q'.length → op.apply q' =
        .ok (matVec E.rows ((op.kind.indices E.nrows).map fun t => (t.map fun i => q'.getD i 0).prod)) := by
      intro q' h'
      simp only [KronOp.apply, hE, if_neg (show ¬ E.nrows = 1 by omega), if_neg (show ¬ q'.length < E.nrows by omega)]
    refine ⟨?_, _, e q h⟩
    rw [e q h, e (q.take E.nrows) (by rw [length_take]; omega)]
    congr 2
    refine map_congr_left fun t ht => congrArg List.prod (map_congr_left fun i hi => ?_)
    rw [indices_eq] at ht
    have hlt := (mem_monoms.1 ht).2.2 i hi
    simp only [getD_eq_getElem?_getD, getElem?_take, if_pos hlt]

/-- **C03** (no states). The data block of a quadratic, cubic or quartic operator is refused exactly for states without entries. -/
theorem C03_kron_datablock_refused [CommSemiring K] (k : Kind) (r : Nat) (states : List (List K)) :
    (k.datablock r states = .error .value ↔ r = 0) ∧
      (0 < r → k.datablock r states = .ok (states.map fun q => (monoms k.deg q.length).map (mono q))) := by
  constructor
  · rw [Kind.datablock]
    by_cases h : r = 0 <;> simp [h]
  · intro h
    rw [Kind.datablock, if_neg (by omega)]
    congr 1
    exact map_congr_left fun q _ => ckron_eq k q

/-- **C07** (states of the wrong length). `PolynomialOperator.apply` returns exactly for states with as many entries as the
operator has rows, and raises `ValueError` for the others; unlike the dedicated operators it ignores nothing. -/
theorem C07_poly_state_length [CommSemiring K] (p : Nat) (E : Mat K) (q : List K) :
    (q.length ≠ E.nrows → polyApply p E q = .error .value) ∧
    (q.length = E.nrows → ∃ y, polyApply p E q = .ok y ∧ y.length = E.rows.length) := by
  constructor
  · intro h
    rw [polyApply, if_pos h]
  · intro h
    rw [polyApply, if_neg (by simpa using h)]
    split
    · exact ⟨_, rfl, by simp⟩
    · split <;> exact ⟨_, rfl, by simp [matVec]⟩

/-- A quadratic operator with two states. -/
def quadOp : KronOp ℚ := ⟨.quad, some ⟨2, 3, [[1, 2, 3], [0, 1, 0]]⟩, none⟩

-- the third entry of the state has no effect
example : quadOp.apply [1, 2, 100] = quadOp.apply [1, 2] := by
  have := ((C03_kron_state_length quadOp [1, 2, 100]).2 _ rfl (by decide)).2 (by decide)
  exact this.1

example : quadOp.apply [1, 2] = .ok [17, 2] ∧ quadOp.apply [1] = .error .index ∧
    polyApply (K := ℚ) 2 ⟨2, 3, [[1, 2, 3], [0, 1, 0]]⟩ [1, 2] = .ok [17, 2] ∧
    polyApply (K := ℚ) 2 ⟨2, 3, [[1, 2, 3], [0, 1, 0]]⟩ [1, 2, 100] = .error .value := by
  refine ⟨?_, ?_, ?_, ?_⟩ <;> decide +kernel

end Opinf
