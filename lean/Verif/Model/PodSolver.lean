import Verif.Model.Basis

/-! Model of the SVD solver of a POD basis and of the function `pod_basis()`: `basis/_pod.py:232-305, 370-407,
658-730, 1037-1103`. -/

namespace Opinf

open List

variable {K : Type}

/-- A value given for `svdsolver`: a string, or a callable with its `__name__`. -/
inductive SvdArg
  | name (s : String)
  | callable (f : String)
  deriving DecidableEq, Repr

/-- The stored strategy: `__svdsolverlabel` together with `__svdengine`. -/
inductive SvdLabel
  | dense
  | randomized
  | snapshots
  | custom (f : String)
  deriving DecidableEq, Repr

/-- The checks of the setter of `svdsolver`: _pod.py:378-394. -/
def SvdArg.label : SvdArg → Except Err SvdLabel
  | .callable f => .ok (.custom f)
  | .name s =>
    let s := if s = "eigh" then "method-of-snapshots" else s
    if s = "dense" then .ok .dense
    else if s = "randomized" then .ok .randomized
    else if s = "method-of-snapshots" then .ok .snapshots
    else .error .attribute

/-- Values of the keyword arguments of an SVD solver. -/
inductive OptVal (K : Type)
  | null
  | bool (b : Bool)
  | int (n : Nat)
  | weights (W : Weights K)
  | dict (keys : List String)
  deriving DecidableEq, Repr

/-- A dictionary of options; the keys are distinct. -/
abbrev SvdOpts (K : Type) := List (String × OptVal K)

/-- `options[key] = v`. -/
def setOpt (o : SvdOpts K) (key : String) (v : OptVal K) : SvdOpts K := (key, v) :: o.filter fun e => e.1 ≠ key

/-- The options with which the solver is called: _pod.py:684-695. -/
def svdOptions (l : SvdLabel) (o : SvdOpts K) (keep : Nat) (W : Option (Weights K)) : SvdOpts K :=
  match l with
  | .dense => setOpt o "full_matrices" (.bool false)
  | .randomized =>
    let o := setOpt o "n_components" (.int keep)
    if o.any fun e => e.1 = "random_state" then o else setOpt o "random_state" .null
  | .snapshots => setOpt o "inner_product_matrix" ((W.map OptVal.weights).getD .null)
  | .custom _ => o

/-- The libraries: like `PodExt`, but with the solver that is called and the options that it gets. -/
structure PodLib (K : Type) where
  sqrt : K → K
  sqrtm : Mat K → Mat K
  choSolve : Mat K → List K → List K
  engine : SvdLabel → SvdOpts K → Snap K → Except Err (Cols K × List K × Cols K)

/-- The libraries as one call of `fit` uses them. -/
def PodLib.ext (lib : PodLib K) (l : SvdLabel) (o : SvdOpts K) (keep : Nat) : PodExt K where
  sqrt := lib.sqrt
  sqrtm := lib.sqrtm
  choSolve := lib.choSolve
  engine W Z := lib.engine l (svdOptions l o keep W) Z

/-- A POD basis with its solver, the options, and whether the square root of the weights has been stored by the
constructor (_pod.py:288-305). -/
structure SolverPod (K : Type) where
  pod : Pod K
  label : SvdLabel
  opts : SvdOpts K
  root : Bool
  deriving DecidableEq, Repr

/-- Replaces the solver: _pod.py:378-394. -/
def SolverPod.withLabel (s : SolverPod K) (l : SvdLabel) : SolverPod K :=
  { s with label := l, pod := { s.pod with mos := decide (l = .snapshots), randomized := decide (l = .randomized) } }

/-- The setter of `svdsolver`: _pod.py:378-394. -/
def SolverPod.setSolver (s : SolverPod K) (a : SvdArg) : SolverPod K × Except Err Unit :=
  match a.label with
  | .error e => (s, .error e)
  | .ok l => (s.withLabel l, .ok ())

/-- A value given for `svdsolver_options`. -/
inductive OptsArg (K : Type)
  | null
  | dict (o : SvdOpts K)
  | other
  deriving DecidableEq, Repr

/-- The setter of `svdsolver_options`: _pod.py:401-407. -/
def SolverPod.setOptions (s : SolverPod K) : OptsArg K → SolverPod K × Except Err Unit
  | .null => ({ s with opts := [] }, .ok ())
  | .dict o => ({ s with opts := o }, .ok ())
  | .other => (s, .error .type)

section
variable [Field K] [LinearOrder K]

/-- `PODBasis.__init__`: _pod.py:245-305. -/
def SolverPod.make (a : CritArgs K) (maxWanted : Option Int) (arg : SvdArg) (W : WArg K) (name : Option String)
    (o : SvdOpts K) : Except Err (SolverPod K) := do
  let s ← Pod.make a maxWanted false false W name
  let l ← arg.label
  return SolverPod.withLabel ⟨s, l, o, s.lin.weights.isSome && decide (l ≠ .snapshots)⟩ l

/-- Whether `fit` reads a square root of the weights that has never been stored: _pod.py:697-702. -/
def SolverPod.rootMissing (s : SolverPod K) : Bool :=
  s.pod.lin.weights.isSome && decide (s.label ≠ .snapshots) && !s.root

/-- The shape of the states, as used for the number of vectors: _pod.py:669. -/
def Snap.minShape : Snap K → Nat
  | .vec xs => xs.length
  | .mat k rows => min rows.length k

/-- The number of vectors that are kept: _pod.py:668-680. -/
def SolverPod.kept (s : SolverPod K) : Snap K → Nat
  | .vec _ => 0
  | .mat k rows => s.pod.keep rows.length k

/-- `fit`: _pod.py:658-730. -/
def SolverPod.fit (lib : PodLib K) (s : SolverPod K) (Y : Snap K) : SolverPod K × Except Err Unit :=
  if s.rootMissing then (s, .error .attribute)
  else
    let r := s.pod.fit (lib.ext s.label s.opts (s.kept Y)) Y
    ({ s with pod := r.1 }, r.2)

/-- What `pod_basis()` returns of a fitted basis: _pod.py:1099-1103. -/
def SolverPod.output (s : SolverPod K) (right : Bool) : Except Err (Cols K × List K × Option (Cols K)) :=
  match s.pod.lin.entries, s.pod.svd with
  | some V, some d =>
    if right then match d.right with
      | some R => .ok (V, d.vals, some (R.upTo (s.pod.lin.r.getD 0)))
      | none => .error .type
    else .ok (V, d.vals, none)
  | _, _ => .error .attribute

/-- `pod_basis(states, ...)`: _pod.py:1037-1103. `max_vectors` has no parameter of its own, but is accepted among
the solver options and handed on to the constructor. -/
def podBasis (lib : PodLib K) (Y : Snap K) (a : CritArgs K) (maxWanted : Option Int) (arg : SvdArg) (W : WArg K)
    (right : Bool) (o : SvdOpts K) : Except Err (Cols K × List K × Option (Cols K)) := do
  let a := if a.provided.isEmpty then { a with num := some (Y.minShape : Int) } else a
  let s ← SolverPod.make a maxWanted arg W none o
  let r := s.fit lib Y
  r.2
  r.1.output right

end

end Opinf
