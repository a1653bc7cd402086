import Verif.Model.Affine
import Mathlib.Data.List.Sort

/-!
# Interpolated parametric operators

Models `/repo/src/opinf/operators/_interpolate.py` and the shared parts of
`/repo/src/opinf/operators/_base.py` (`ParametricOpInfOperator`).

The interpolator classes (`scipy.interpolate` or user-defined) are external: a record `ItpLib` says for
each class whether constructing an interpolator succeeds and what it returns at a parameter value.

Simplifications: entries are dense two-dimensional arrays (`r x 1` for constant operators) and the
interpolator returns such an array (the code drops a leading axis of length one, _interpolate.py:352-353);
one-dimensional blocks passed with `fromblock=True` are not modelled; warnings are not modelled.
-/

namespace Opinf

open List

variable {K : Type}

/-- The interpolator classes: the two defaults and any other; `scipy` says whether a class of that name
is found in `scipy.interpolate`. -/
inductive ItpClass
  | cubic
  | linearND
  | other (name : Nat) (scipy : Bool)
  deriving DecidableEq, Repr

/-- `hasattr(spinterp, cls.__name__)`. -/
def ItpClass.inScipy : ItpClass → Bool
  | .cubic => true
  | .linearND => true
  | .other _ b => b

/-- The array of training parameters: `(s,)` or `(s, p)`. -/
inductive PArr (K : Type)
  | one (xs : List K)
  | two (p : Nat) (rows : List (List K))
  deriving DecidableEq, Repr

/-- `len(parameters)`. -/
def PArr.length : PArr K → Nat
  | .one xs => xs.length
  | .two _ rows => rows.length

/-- The elements of the array, as parameter values. -/
def PArr.toPars : PArr K → List (Par K)
  | .one xs => xs.map .scalar
  | .two _ rows => rows.map .vec

/-- The parameter dimension read off the array: _base.py:1226-1240. -/
def PArr.dim : PArr K → Nat
  | .one _ => 1
  | .two p _ => p

/-- `np.shape` of a parameter value: `none` for a scalar. -/
def Par.shape : Par K → Option Nat
  | .scalar _ => none
  | .vec xs => some xs.length

/-- The entries of a parameter value as a list. -/
def Par.toList : Par K → List K
  | .scalar x => [x]
  | .vec xs => xs

/-- The array made of a list of parameter values, with a single column flattened:
_interpolate.py:176-188. An empty list raises `IndexError` (in `_check_shape_consistency`), different
shapes `ValueError`. -/
def PArr.ofPars (ps : List (Par K)) : Except Err (PArr K) :=
  match ps with
  | [] => .error .index
  | mu :: _ => if ps.any fun x => x.shape ≠ mu.shape then .error .value
    else match mu.shape with
      | none => .ok (.one (ps.flatMap Par.toList))
      | some p => if p = 1 then .ok (.one (ps.flatMap Par.toList)) else .ok (.two p (ps.map Par.toList))

/-- The external interpolation library. `build cls params entries` is what `cls(params, entries)` raises,
if anything; `eval cls params entries mu` what the resulting object returns (or raises) at `mu`. -/
structure ItpLib (K : Type) where
  build : ItpClass → PArr K → List (Mat K) → Except Err Unit
  eval : ItpClass → PArr K → List (Mat K) → Par K → Except Err (Mat K)

/-- An interpolated operator object: the operator class it evaluates to, training parameters, parameter
dimension, entries, interpolator class, and the interpolator (the arguments it was made from). -/
structure Interp (K : Type) where
  kind : OpKind
  params : Option (PArr K)
  p : Option Nat
  entries : Option (List (Mat K))
  cls : Option ItpClass
  itp : Option (ItpClass × PArr K × List (Mat K))
  deriving DecidableEq

/-- `set_training_parameters(training_parameters)`: _interpolate.py:162-188. -/
def Interp.setParams (t : Interp K) (ps : List (Par K)) : Except Err (Interp K) :=
  if t.itp.isSome then .error .attribute
  else match PArr.ofPars ps with
    | .error e => .error e
    | .ok P => .ok { t with params := some P, p := some P.dim }

/-- `params[np.argsort(params)]` and `entries[np.argsort(params)]`: the pairs, sorted by parameter. -/
def sortPairs [LinearOrder K] (xs : List K) (As : List (Mat K)) : List (K × Mat K) :=
  (zip xs As).insertionSort fun a b => a.1 ≤ b.1

/-- The class and the data the interpolator is constructed from: _interpolate.py:262-276. Only the
default class of one-dimensional parameters sorts the data. -/
def itpData [LinearOrder K] (c : Option ItpClass) (P : PArr K) (As : List (Mat K)) :
    ItpClass × PArr K × List (Mat K) :=
  match c, P with
  | some c, P => (c, P, As)
  | none, .one xs => (.cubic, .one ((sortPairs xs As).map Prod.fst), (sortPairs xs As).map Prod.snd)
  | none, .two p rows => (.linearND, .two p rows, As)

/-- `set_interpolator(InterpolatorClass)`: _interpolate.py:249-279. -/
def Interp.setInterpolator [LinearOrder K] (lib : ItpLib K) (t : Interp K) (c : Option ItpClass) :
    Interp K × Except Err Unit :=
  match t.entries with
  | none => ({ t with cls := c }, .ok ())
  | some As => match t.params with
    | none => (t, .error .attribute)
    | some P => match lib.build (itpData c P As).1 (itpData c P As).2.1 (itpData c P As).2.2 with
      | .error e => (t, .error e)
      | .ok () => ({ t with itp := some (itpData c P As), cls := some (itpData c P As).1 }, .ok ())

/-- `set_entries(entries, fromblock)`: _interpolate.py:198-239. The entries are stored before the
interpolator is constructed. -/
def Interp.setEntries [AddMonoid K] [LinearOrder K] (lib : ItpLib K) (t : Interp K) (e : EntArg K) :
    Interp K × Except Err Unit :=
  match t.params with
  | none => (t, .error .attribute)
  | some P => match parseEntries t.kind P.length e with
    | .error err => (t, .error err)
    | .ok As => Interp.setInterpolator lib { t with entries := some As } t.cls

/-- The state of an operation that also raises or not, as a result. -/
def finish {α : Type} (x : α × Except Err Unit) : Except Err α :=
  match x.2 with
  | .error e => .error e
  | .ok () => .ok x.1

/-- The constructor without entries: _interpolate.py:96-104. -/
def Interp.start (kind : OpKind) (ps : Option (List (Par K))) (c : Option ItpClass) :
    Except Err (Interp K) :=
  match ps with
  | none => .ok ⟨kind, none, none, none, c, none⟩
  | some ps => Interp.setParams ⟨kind, none, none, none, c, none⟩ ps

/-- The constructor: _interpolate.py:88-107. -/
def Interp.make [AddMonoid K] [LinearOrder K] (lib : ItpLib K) (kind : OpKind)
    (ps : Option (List (Par K))) (e : Option (EntArg K)) (c : Option ItpClass) :
    Except Err (Interp K) :=
  match Interp.start kind ps c with
  | .error err => .error err
  | .ok t => match e with
    | none => .ok t
    | some e => finish (t.setEntries lib e)

/-- The entries of an operator to be interpolated: _interpolate.py:124-133. -/
def entriesOf (kind : OpKind) (o : Op K) : Except Err (Mat K) :=
  if o.kind ≠ kind then .error .type
  else match o.entries with
    | none => .error .value
    | some E => .ok E

/-- `_from_operators(training_parameters, operators, InterpolatorClass)`: _interpolate.py:109-142. -/
def Interp.fromOperators [AddMonoid K] [LinearOrder K] (lib : ItpLib K) (kind : OpKind)
    (ps : List (Par K)) (ops : List (Op K)) (c : Option ItpClass) : Except Err (Interp K) :=
  match ops.mapM (entriesOf kind) with
  | .error e => .error e
  | .ok As => Interp.make lib kind (some ps) (some (.list As)) c

/-- `_clear()`: _interpolate.py:144-147. The training parameters and the class stay. -/
def Interp.clear (t : Interp K) : Interp K := { t with p := none, entries := none, itp := none }

/-- The parameter value passed to the interpolator: _interpolate.py:349-350. -/
def Interp.unwrap (t : Interp K) (mu : Par K) : Par K :=
  match t.p, mu with
  | some 1, .vec (x :: _) => .scalar x
  | _, mu => mu

/-- `evaluate(parameter)`: _interpolate.py:334-354 (with the check _base.py:956-961). Calling the
interpolator `None` raises `TypeError`. -/
def Interp.evaluate [AddMonoid K] (lib : ItpLib K) (t : Interp K) (mu : Par K) : Except Err (Op K) :=
  match t.entries with
  | none => .error .attribute
  | some _ => match t.p with
    | none => .error .runtime
    | some p => if mu.dim ≠ p then .error .value
      else match t.itp with
        | none => .error .type
        | some (c, P, As) => match lib.eval c P As (t.unwrap mu) with
          | .error e => .error e
          | .ok E => match t.kind.setEntries E with
            | .error e => .error e
            | .ok E => .ok ⟨t.kind, some E⟩

/-- `apply(parameter, state, input_)`: _base.py:982-1016. -/
def Interp.apply [CommSemiring K] (lib : ItpLib K) (t : Interp K) (mu : Par K) (s : Arg K)
    (u : Option (Arg K)) : Except Err (Arg K) :=
  match t.evaluate lib mu with
  | .error e => .error e
  | .ok o => o.apply s u

/-- `galerkin(Vr, Wr)`: _interpolate.py:357-416. -/
def Interp.galerkin [Field K] [LinearOrder K] (lib : ItpLib K)
    (solve : List (List K) → Mat K → Except Err (Mat K)) (t : Interp K) (rV r : Nat)
    (V W : List (List K)) : Except Err (Interp K) :=
  match t.entries with
  | none => .error .attribute
  | some As => match As.mapM fun A => t.kind.galerkin solve A rV r V W with
    | .error e => .error e
    | .ok Bs => Interp.make lib t.kind (t.params.map PArr.toPars) (some (.list Bs)) t.cls

/-- `operator_dimension(s, r, m)`: _interpolate.py:455-468. -/
def interpDim (kind : OpKind) (s r m : Nat) : Nat := s * kind.dim r m

/-- One block of the block diagonal: the snapshots of the `i`-th parameter padded with zeros. -/
def padBlock [Zero K] (d s i : Nat) (cols : List (List K)) : List (List K) :=
  cols.map fun c => replicate (i * d) 0 ++ c ++ replicate ((s - 1 - i) * d) 0

/-- `datablock(parameters, states, inputs).T`: _interpolate.py:419-453; one entry per parameter value,
each with its snapshots and inputs, all of state dimension `r` and input dimension `m`. -/
def interpBlock [CommSemiring K] (kind : OpKind) (r m : Nat)
    (data : List (Par K × List (List K) × Option (List (List K)))) : List (List K) :=
  (data.mapIdx fun i x => padBlock (kind.dim r m) data.length i (kind.block x.2.1 x.2.2)).flatten

/-- `copy()`: _interpolate.py:471-478. -/
def Interp.copy [AddMonoid K] [LinearOrder K] (lib : ItpLib K) (t : Interp K) : Except Err (Interp K) :=
  Interp.make lib t.kind (t.params.map PArr.toPars) (t.entries.map .list) t.cls

/-- The content of the file written by `save`: _interpolate.py:480-519. -/
structure InterpFile (K : Type) where
  kind : OpKind
  cls : Option ItpClass
  params : Option (PArr K)
  entries : Option (List (Mat K))

/-- `save(savefile)`. -/
def Interp.save (t : Interp K) : InterpFile K := ⟨t.kind, t.cls, t.params, t.entries⟩

/-- The class used by `load`: _interpolate.py:549-570; a name that is not in `scipy.interpolate` raises
`ValueError` unless the class is passed. -/
def loadClass (saved given : Option ItpClass) : Except Err (Option ItpClass) :=
  match given, saved with
  | some c, _ => .ok (some c)
  | none, none => .ok none
  | none, some c => if c.inScipy then .ok (some c) else .error .value

/-- `load(loadfile, InterpolatorClass)`: _interpolate.py:521-582, called on the class evaluating to
`kind`. -/
def Interp.load [AddMonoid K] [LinearOrder K] (lib : ItpLib K) (kind : OpKind) (f : InterpFile K)
    (c : Option ItpClass) : Except Err (Interp K) :=
  if f.kind ≠ kind then .error .type
  else match loadClass f.cls c with
    | .error e => .error e
    | .ok c => Interp.make lib kind (f.params.map PArr.toPars) (f.entries.map .list) c

end Opinf
