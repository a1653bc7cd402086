import Verif.Model.Mono

/-!
# Re-projection of trajectories

Model of /repo/src/opinf/utils/_reprojection.py. The basis is given by its `n` rows and the number `r` of columns. The
full-order system is a function of the state and of the input that the code passes to it: nothing, a number (entry of a
one-dimensional array) or a vector (column of a two-dimensional array). Results of the system with another number of
dimensions than one are not modelled.
-/

namespace Opinf

open List

variable {K : Type}

/-- `f(state)` or `f(state, input)`. -/
abbrev FullSystem (K : Type) := List K → Option (Arg K) → Except Err (List K)

/-- `inputs.ndim`, which a number does not have: _reprojection.py:50-56, 104-110. -/
def checkReproj : Option (Arg K) → Except Err Unit
  | some (.scalar _) => .error .attribute
  | _ => .ok ()

/-- `inputs[j]` or `inputs[:, j]`: _reprojection.py:55, 58-60, 109, 112. -/
def reprojInput : Option (Arg K) → Nat → Except Err (Option (Arg K))
  | none, _ => .ok none
  | some (.scalar _), _ => .error .attribute
  | some (.vec xs), j => match xs[j]? with
    | none => .error .index
    | some x => .ok (some (.scalar x))
  | some (.mat _ cols), j => match cols[j]? with
    | none => .error .index
    | some c => .ok (some (.vec c))

variable [Semiring K]

/-- `basis.T @ f(basis @ states_[:, j], ..)`: _reprojection.py:52, 55, 58-60, 106, 109, 112. -/
def reprojStep (f : FullSystem K) (n r : Nat) (V : List (List K)) (inputs : Option (Arg K)) (q : List K) (j : Nat) :
    Except Err (List K) := do
  let u ← reprojInput inputs j
  let z ← f (matVec V q) u
  if z.length ≠ n then throw .value
  return matVec (transpose r V) z

/-- `reproject_discrete(f, basis, init, niters, inputs)`: _reprojection.py:15-62. `np.empty` with a negative size raises
`ValueError`, the first column of an array without columns `IndexError`. -/
def reprojectDiscrete (f : FullSystem K) (n r : Nat) (V : List (List K)) (init : List K) (niters : Int)
    (inputs : Option (Arg K)) : Except Err (List (List K)) := do
  if init.length ≠ n then throw .value
  if niters < 0 then throw .value
  if niters = 0 then throw .index
  checkReproj inputs
  iterate (reprojStep f n r V inputs) (matVec (transpose r V) init) niters.toNat

/-- `reproject_continuous(f, basis, states, inputs)`: _reprojection.py:65-114. One-dimensional states have no second
dimension (`IndexError`), a number has no shape (`AttributeError`). -/
def reprojectContinuous (f : FullSystem K) (n r : Nat) (V : List (List K)) (states : Arg K) (inputs : Option (Arg K)) :
    Except Err (List (List K) × List (List K)) :=
  match states with
  | .scalar _ => .error .attribute
  | .vec xs => if xs.length ≠ n then .error .value else .error .index
  | .mat n' cols => if n' ≠ n then .error .value else do
    checkReproj inputs
    let S := cols.map (matVec (transpose r V))
    let D ← (zip S (range S.length)).mapM fun x => reprojStep f n r V inputs x.1 x.2
    return (S, D)

end Opinf
