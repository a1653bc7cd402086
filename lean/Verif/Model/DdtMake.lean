import Verif.Model.FiniteDiff

/-!
# Constructing a finite difference estimator

Models the constructor of `UniformFiniteDifferencer` in
`/repo/src/opinf/ddt/_finite_difference.py`. `np.allclose(diffs, diffs[0])` is exact equality.
-/

namespace Opinf

open List

variable {K : Type*}

/-- The argument `time_domain`: a one-dimensional array or anything else. -/
inductive TimesArg (K : Type*)
  | arr (t : List K)
  | other

/-- A `UniformFiniteDifferencer`: the time domain and the scheme. -/
structure Ufd (K : Type*) where
  t : List K
  scheme : Scheme
  deriving DecidableEq

/-- `UniformFiniteDifferencer(time_domain, scheme)`: ddt/_base.py:73-77 and
_finite_difference.py:823-836. -/
def Ufd.make [Sub K] [DecidableEq K] (a : TimesArg K) (scheme : List Char) : Except Err (Ufd K) :=
  match a with
  | .other => .error .value
  | .arr t => match uniformDomain t with
    | .error e => .error e
    | .ok _ => match schemeOfName scheme with
      | .error e => .error e
      | .ok s => .ok ⟨t, s⟩

/-- `dt`: _finite_difference.py:840-843. -/
def Ufd.dt [Sub K] (e : Ufd K) : Except Err K :=
  match e.t with
  | a :: b :: _ => .ok (b - a)
  | _ => .error .index

/-- `estimate(states, inputs)`: _finite_difference.py:859-884. -/
def Ufd.estimate [Field K] [DecidableEq K] (e : Ufd K) (states : Mat K) (inputs : Option (InputArr K)) :
    Except Err (Mat K × Mat K × Option (Mat K)) :=
  match e.dt with
  | .error err => .error err
  | .ok dt => e.scheme.estimate dt states inputs

end Opinf
