import Verif.Model.MultiShared

/-!
# Multi-variable transformers as objects

`Verif.Model.Transform` treats the transformers of a `TransformerMulti` as values. In the code they are the objects that were
passed to the constructor (/repo/src/opinf/pre/_multi.py:373, 400). Here transformer objects are numbers in a store and a
`TransformerMulti` is a list of such numbers.
-/

namespace Opinf

open List

variable {K S : Type}

/-- One step of the loop over `zip(tfs, variable_sizes)`: _multi.py:388-395. -/
def sizeStep (I : TfI K S) (n : Nat) (t : S) : S × Except Err Unit :=
  match I.dim t with
  | none => I.setDim t n
  | some m => if m = n then (t, .ok ()) else (t, .error .value)

/-- `TransformerMulti(transformers, variable_sizes)`: _multi.py:366-400, without the default names; the objects stand for the
list `tfs`, where `None` is replaced by new objects. -/
def heapMultiMake (I : TfI K S) (refs : List Nat) (sizes : Option (List Nat)) (H : List S) : List S × Except Err Unit :=
  if refs.isEmpty then (H, .error .value)
  else
    match sizes with
    | none => (H, .ok ())
    | some ns => if ns.length ≠ refs.length then (H, .error .value) else heapLoop refs (ns.map (sizeStep I)) H

/-- The list comprehension over `zip(self.transformers, parts)` in `fit_transform`: _multi.py:595-600. Returns the objects, the
parts of the argument afterwards and the results. -/
def heapEachFit (f : S → Snap K → S × Buf K) : List Nat → List (Snap K) → List S →
    List S × List (Snap K) × Except Err (List (Snap K))
  | p :: ps, Y :: Ys, H =>
    match H[p]? with
    | none => (H, Y :: Ys, .error .index)
    | some t =>
      match f t Y with
      | (t', Y', .error e) => (H.set p t', Y' :: Ys, .error e)
      | (t', Y', .ok Z) =>
        match heapEachFit f ps Ys (H.set p t') with
        | (H', Ys', .error e) => (H', Y' :: Ys', .error e)
        | (H', Ys', .ok Zs) => (H', Y' :: Ys', .ok (Z :: Zs))
  | _, Ys, H => (H, Ys, .ok [])

/-- Splitting the states and training the transformers with their parts: _multi.py:593-603. -/
def heapMultiParts (I : TfI K S) (refs : List Nat) (b : Bool) (Y : Snap K) (H : List S) : List S × Buf K :=
  match multiSplit I (heapRead H refs) Y with
  | .error e => (H, Y, .error e)
  | .ok parts =>
    let r := heapEachFit (fun t Y => I.fitTransform t b Y) refs parts H
    (r.1, multiResult b Y r.2)

/-- `fit_transform(states, inplace)`: _multi.py:562-603. -/
def heapMultiFit (I : TfI K S) (refs : List Nat) (b : Bool) (Y : Snap K) (H : List S) : List S × Buf K :=
  match multiDim I (heapRead H refs) with
  | some _ => heapMultiParts I refs b Y H
  | none =>
    if Y.len % refs.length = 0 then
      heapMultiParts I refs b Y (heapLoop refs (refs.map fun _ t => (I.forceDim t (Y.len / refs.length), .ok ())) H).1
    else (H, Y, .error .dimensionality)

end Opinf
