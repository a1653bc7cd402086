import Verif.Model.Basis

/-!
# Model of the method of snapshots

Source: /repo/src/opinf/basis/_pod.py:33-134 (`_Wmult`, `method_of_snapshots`). The eigenvalue decomposition of the
Gramian is a parameter. Not modelled: the warning for more snapshots than entries, and broadcasting of a single diagonal
weight (weights of another length than the states raise ValueError here).
-/

namespace Opinf

open List

variable {K : Type} [Field K] [LinearOrder K]

/-- Column `j` of an array given by its rows, as in `states.T`. -/
def rowsColumn (rows : List (List K)) (j : Nat) : List K := rows.map fun row => row.getD j 0

/-- `states.T @ (W @ (states / n_states))` or, without weights, `states.T @ (states / n_states)`: _pod.py:110-113. -/
def snapGram (W : Option (Weights K)) (k : Nat) (rows : List (List K)) : Except Err (List (List K)) := do
  match ← applyWeights W (.mat k (rows.map fun row => row.map (· / (k : K)))) with
  | .vec _ => .error .value
  | .mat _ rows' => return (range k).map fun i => (range k).map fun j => dot (rowsColumn rows i) (rowsColumn rows' j)

/-- `max(minthresh, abs(np.min(eigvals)))`; the minimum of nothing raises ValueError: _pod.py:125. -/
def snapThreshold (minthresh : K) : List K → Except Err K
  | [] => .error .value
  | a :: l => .ok (max minthresh |l.foldl min a|)

/-- The eigenvalues and eigenvectors after re-ordering, and of these the ones above the threshold: _pod.py:118-127. -/
def snapKept (minthresh : K) (evals : List K) (evecs : Cols K) : Except Err (List (K × List K)) := do
  let thr ← snapThreshold minthresh evals.reverse
  return (zip evals.reverse evecs.cols.reverse).filter fun p => thr < p.1

/-- `method_of_snapshots`: left singular vectors `states @ (eigvecs / svals)`, singular values `sqrt(eigvals * n_states)`
and right singular vectors: _pod.py:47-134. `eigh` returns ascending eigenvalues and eigenvectors as columns. -/
def methodOfSnapshots (eigh : List (List K) → Except Err (List K × Cols K)) (sqrt : K → K) (minthresh : K)
    (W : Option (Weights K)) (Y : Snap K) : Except Err (Cols K × List K × Cols K) :=
  match Y with
  | .vec _ => .error .value
  | .mat k rows => do
    let e ← eigh (← snapGram W k rows)
    let kept ← snapKept minthresh e.1 e.2
    let svals := kept.map fun p => sqrt (p.1 * (k : K))
    return (⟨rows.length, kept.map fun p => matVec rows (p.2.map (· / sqrt (p.1 * (k : K))))⟩, svals,
      ⟨k, kept.map fun p => p.2⟩)

end Opinf
