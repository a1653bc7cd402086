import Verif.Model.Basis
import Verif.Model.Transform

/-!
# Multi-variable bases as objects

`Verif.Model.Basis` treats the bases of a `BasisMulti` as values. In the code they are the objects that were passed to the
constructor, not copies (/repo/src/opinf/basis/_multi.py:92-94): the constructor sets their names and sizes, `fit` trains
them, and one object may serve several variables or several multi-variable bases. Here basis objects are numbers in a store
and a `BasisMulti` is a list of such numbers.
-/

namespace Opinf

open List

variable {K S : Type}

/-- A loop `for basis, ... in zip(bases, ...)` over objects, where each step changes one object and may raise: the loops of
_multi.py:80-90, 63-65, 324-325 and 329-332. -/
def heapLoop : List Nat → List (S → S × Except Err Unit) → List S → List S × Except Err Unit
  | p :: ps, f :: fs, H =>
    match H[p]? with
    | none => (H, .error .index)
    | some b =>
      match f b with
      | (b', .error e) => (H.set p b', .error e)
      | (b', .ok ()) => heapLoop ps fs (H.set p b')
  | _, _, H => (H, .ok ())

/-- The objects of a list of references. -/
def heapRead (H : List S) (refs : List Nat) : List S := refs.filterMap (H[·]?)

/-- `if basis.name is None: basis.name = f"variable {i}"`: _multi.py:89-90. -/
def nameStep (I : BasI K S) (i : Nat) (b : S) : S × Except Err Unit :=
  (if (I.name b).isNone then I.setName b (some s!"variable {i}") else b, .ok ())

/-- `BasisMulti(bases, full_variable_sizes)`: _multi.py:57-65, 73-94. -/
def heapMake (I : BasI K S) (refs : List Nat) (sizes : Option (List Nat)) (H : List S) : List S × Except Err Unit :=
  if refs.isEmpty then (H, .error .value)
  else
    match heapLoop refs ((range refs.length).map (nameStep I)) H with
    | (H, .error e) => (H, .error e)
    | (H, .ok ()) =>
      match sizes with
      | none => (H, .ok ())
      | some ns =>
        if ns.length ≠ refs.length then (H, .error .value)
        else heapLoop refs (ns.map fun n b => (I.setN b n, .ok ())) H

/-- Training the bases with their parts of the states: _multi.py:328-333. -/
def heapFitParts (I : BasI K S) (refs : List Nat) (Y : Snap K) (H : List S) : List S × Except Err Unit :=
  match (do basisCheck (sizesSum I.n (heapRead H refs)) Y; basisSplit I (heapRead H refs) Y :
      Except Err (List (Snap K))) with
  | .error e => (H, .error e)
  | .ok parts => heapLoop refs (parts.map fun P b => I.fit b P) H

/-- `fit(states)`: _multi.py:300-333. -/
def heapFit (I : BasI K S) (refs : List Nat) (Y : Snap K) (H : List S) : List S × Except Err Unit :=
  match sizesSum I.n (heapRead H refs) with
  | some _ => heapFitParts I refs Y H
  | none =>
    if Y.len % refs.length ≠ 0 then (H, .error .dimensionality)
    else
      match heapLoop refs (refs.map fun _ b => (I.setN b (Y.len / refs.length), .ok ())) H with
      | (H, .error e) => (H, .error e)
      | (H, .ok ()) => heapFitParts I refs Y H

/-- `variable_names`: _multi.py:101-104. -/
def heapNames (I : BasI K S) (refs : List Nat) (H : List S) : List String := (heapRead H refs).filterMap I.name

/-- `multi[name]`: _multi.py:148-152; tuple indices must be integers. -/
def heapItem (I : BasI K S) (refs : List Nat) (H : List S) (key : String) : Except Err Nat :=
  if key ∈ heapNames I refs H then .ok (refs.getD ((heapNames I refs H).idxOf key) 0) else .error .type

/-- `TransformerPipeline.fit_transform` over objects: /repo/src/opinf/pre/_multi.py:105-115. Returns the objects, the
argument and the result. -/
def heapChainFit (f : S → Bool → Snap K → S × Buf K) : List Nat → Bool → Snap K → List S → List S × Buf K
  | [], _, Y, H => (H, Y, .ok Y)
  | p :: ps, b, Y, H =>
    match H[p]? with
    | none => (H, Y, .error .index)
    | some t =>
      match f t b Y with
      | (t', Y', .error e) => (H.set p t', Y', .error e)
      | (t', Y', .ok Z) =>
        let r := heapChainFit f ps true Z (H.set p t')
        (r.1, if b then r.2.1 else Y', r.2.2)

/-- Calls of the constructor and of `fit`, for multi-variable bases with these objects. -/
inductive MultiCall (K : Type)
  | make (refs : List Nat) (sizes : Option (List Nat))
  | fit (refs : List Nat) (Y : Snap K)

/-- The objects after a sequence of calls; exceptions are caught by the caller. -/
def runCalls (I : BasI K S) : List (MultiCall K) → List S → List S
  | [], H => H
  | .make refs sizes :: cs, H => runCalls I cs (heapMake I refs sizes H).1
  | .fit refs Y :: cs, H => runCalls I cs (heapFit I refs Y H).1

end Opinf
