import Verif.Model.Core
import Mathlib.Algebra.Order.Field.Basic
import Mathlib.Data.List.Sort

/-!
# Grid search followed by an optimisation

Model of /repo/src/opinf/utils/_gridsearch.py. The function to be minimised may have side effects (in
`fit_regselect_*` it re-fits the model), so it is a function of the candidate and of a state, and returns the
new state together with a value or an exception. `scipy.optimize` is not modelled: an optimiser is an arbitrary
program that may evaluate the function at points of its choice, depending on the earlier answers, and ends with
a result or an exception. Printing and warnings are not modelled.
-/

namespace Opinf

open List

variable {K : Type}

/-- A floating point value of the function: a number, plus or minus infinity, or NaN. -/
inductive Val (K : Type)
  | num (x : K)
  | inf
  | ninf
  | nan
  deriving DecidableEq, Repr

/-- `a < b` for floating point values; comparisons with NaN are false. -/
def Val.lt [LT K] [DecidableLT K] : Val K → Val K → Bool
  | .num x, .num y => decide (x < y)
  | .num _, .inf => true
  | .ninf, .num _ => true
  | .ninf, .inf => true
  | _, _ => false

/-- `min(__MAXOPTVAL, value)`: _gridsearch.py:106-108. Python's `min` keeps its first argument unless a later
one is smaller, so NaN gives the bound. -/
def Val.clip [LT K] [DecidableLT K] (big : K) (v : Val K) : Val K :=
  if v.lt (.num big) then v else .num big

/-- An argument of the function: a number or a one-dimensional array. -/
inductive Point (K : Type)
  | num (x : K)
  | vec (xs : List K)
  deriving DecidableEq, Repr

/-- The `candidates` argument: a number, a sequence of numbers, or a sequence of one-dimensional arrays. -/
inductive Cands (K : Type)
  | num (x : K)
  | nums (xs : List K)
  | vecs (vs : List (List K))
  deriving DecidableEq, Repr

/-- Candidates after processing: sorted numbers, or arrays. -/
inductive Grid (K : Type)
  | scalars (xs : List K)
  | vectors (vs : List (List K))
  deriving DecidableEq, Repr

/-- Processing of the candidates: _gridsearch.py:83-86, 115-116. No candidates: `candidates[0]` raises
IndexError; arrays of different lengths: `np.atleast_1d` raises ValueError; arrays with one entry each are
treated as numbers. -/
def Cands.process [LinearOrder K] : Cands K → Except Err (Grid K)
  | .num x => .ok (.scalars [x])
  | .nums [] => .error .index
  | .nums xs => .ok (.scalars (xs.insertionSort (· ≤ ·)))
  | .vecs [] => .error .index
  | .vecs (v :: vs) =>
    if vs.any (fun w => w.length != v.length) then .error .value
    else if v.length = 1 then .ok (.scalars ((v :: vs).flatten.insertionSort (· ≤ ·)))
    else .ok (.vectors (v :: vs))

/-- The points at which the function is evaluated in the grid search, in order. -/
def Grid.points : Grid K → List (Point K)
  | .scalars xs => xs.map .num
  | .vectors vs => vs.map .vec

/-- What is handed to the optimiser: bounds of an interval, or a starting point. (The code passes their
logarithms; the model leaves taking logarithms to the optimiser.) -/
inductive Start (K : Type)
  | bounded (lo hi : K)
  | simplex (x0 : List K)
  deriving DecidableEq, Repr

/-- `opt_result.x`, `opt_result.fun` and `opt_result.success`. -/
structure OptRes (K : Type) where
  x : Point K
  fun_ : Val K
  success : Bool
  deriving DecidableEq, Repr

/-- An optimisation routine: it asks for function values and finally returns or raises. -/
inductive Optim (K : Type)
  | done (r : OptRes K)
  | fail (e : Err)
  | ask (x : Point K) (next : Val K → Optim K)

/-- Running an optimiser on a function with side effects. -/
def Optim.run {σ : Type} (F : Point K → σ → σ × Except Err (Val K)) :
    Optim K → σ → σ × Except Err (OptRes K)
  | .done r, s => (s, .ok r)
  | .fail e, s => (s, .error e)
  | .ask x next, s => match F x s with
    | (s, .error e) => (s, .error e)
    | (s, .ok v) => (next v).run F s

/-- The loop over the candidates: _gridsearch.py:117-122. `best` is `(winning_error, winner_index)`. -/
def gridLoop [LT K] [DecidableLT K] {σ : Type} (F : Point K → σ → σ × Except Err (Val K)) :
    Nat → List (Point K) → Val K × Option Nat → σ → σ × Except Err (Val K × Option Nat)
  | _, [], best, s => (s, .ok best)
  | i, c :: cs, best, s => match F c s with
    | (s, .error e) => (s, .error e)
    | (s, .ok v) => gridLoop F (i + 1) cs (if v.lt best.1 then (v, some i) else best) s

/-- The search interval for numbers: _gridsearch.py:135-156. -/
def searchBounds [Field K] (xs : List K) (i : Nat) : K × K :=
  if xs.length = 1 then (xs.getD i 0 / 100, 100 * xs.getD i 0)
  else if i = 0 then (xs.getD i 0 / 100, xs.getD 1 0)
  else if i = xs.length - 1 then (xs.getD (xs.length - 2) 0, 100 * xs.getD i 0)
  else (xs.getD (i - 1) 0, xs.getD (i + 1) 0)

/-- Start of the optimisation from the winner of the grid search: _gridsearch.py:134-173. -/
def Grid.start [Field K] (g : Grid K) (i : Nat) : Start K :=
  match g with
  | .scalars xs => .bounded (searchBounds xs i).1 (searchBounds xs i).2
  | .vectors vs => .simplex (vs.getD i [])

/-- The function handed to the optimiser, `logfunc`: _gridsearch.py:106-108; `pow10` is `10 ** x`. -/
def logFunc [LT K] [DecidableLT K] {σ : Type} (pow10 : Point K → Point K) (big : K)
    (F : Point K → σ → σ × Except Err (Val K)) (x : Point K) (s : σ) : σ × Except Err (Val K) :=
  match F (pow10 x) s with
  | (s, .error e) => (s, .error e)
  | (s, .ok v) => (s, .ok (v.clip big))

/-- The decision between the two winners: _gridsearch.py:176-192. -/
def chooseWinner [LT K] [DecidableLT K] [DecidableEq K] (pow10 : Point K → Point K) (big : K)
    (gridWinner : Point K) (winningError : Val K) (r : OptRes K) : Point K :=
  if !(r.success && decide (r.fun_ ≠ .num big)) || winningError.lt r.fun_ then gridWinner else pow10 r.x

/-- `gridsearch(func, candidates, gridsearch_only)`: _gridsearch.py:23-193. -/
def gridsearch [Field K] [LinearOrder K] {σ : Type} (pow10 : Point K → Point K) (big : K)
    (optimiser : Start K → Optim K) (F : Point K → σ → σ × Except Err (Val K)) (candidates : Cands K)
    (only : Bool) (s : σ) : σ × Except Err (Point K) :=
  match candidates.process with
  | .error e => (s, .error e)
  | .ok g => match gridLoop F 0 g.points (.inf, none) s with
    | (s, .error e) => (s, .error e)
    | (s, .ok (_, none)) => (s, .error .runtime)
    | (s, .ok (v, some i)) =>
      let winner := g.points.getD i (.num 0)
      if only then (s, .ok winner)
      else match (optimiser (g.start i)).run (logFunc pow10 big F) s with
        | (s, .error e) => (s, .error e)
        | (s, .ok r) => (s, .ok (chooseWinner pow10 big winner v r))

end Opinf
