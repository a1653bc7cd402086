import Verif.Model.ParamModel

/-!
# Parametric models and their evaluations as objects

`Verif.Model.ParamModel` treats the result of `evaluate(parameter)` as a value. In the code it is a model whose
list of operators contains the nonparametric operators of the parametric model themselves, not copies
(/repo/src/opinf/models/mono/_parametric.py:395-413), so that later calls on the parametric model may change
the evaluated model. Here operators are objects in a store and models hold references to them.

Simplifications: the operators of one model are different objects (hypothesis `HModel.Distinct` of the
theorems; a list may name the same object twice); arrays are not shared between operator objects.
-/

namespace Opinf

open List

variable {K S : Type}

/-- The operator objects that exist: `get i` is the object number `i`, numbers from `next` on are not used yet. -/
structure Store (K : Type) where
  get : Nat → POp K
  next : Nat

/-- The object `i` changes. -/
def Store.set (h : Store K) (i : Nat) (o : POp K) : Store K := ⟨fun j => if j = i then o else h.get j, h.next⟩

/-- A new object. -/
def Store.alloc (h : Store K) (o : POp K) : Store K :=
  ⟨fun j => if j = h.next then o else h.get j, h.next + 1⟩

/-- An entry of the list `operators` of a model and its membership in `_indices_of_operators_to_infer`. -/
structure HSlot where
  ref : Nat
  infer : Bool
  deriving DecidableEq, Repr

/-- The attributes of a parametric model object: _parametric.py:28-165, _base.py:24-120. -/
structure HModel (S : Type) where
  slots : List HSlot
  hasInputs : Bool
  r : Option Nat
  m : Option Nat
  intrusive : Bool
  solver : Option S
  p : Option Nat
  s : Option Nat

/-- The contents of a parametric model object. -/
def HModel.view (h : Store K) (M : HModel S) : PModel K S :=
  ⟨M.slots.map fun x => ⟨h.get x.ref, x.infer⟩, M.hasInputs, M.r, M.m, M.intrusive, M.solver, M.p, M.s⟩

/-- The objects `refs` get the contents `ops`. -/
def Store.write (h : Store K) : List Nat → List (POp K) → Store K
  | i :: is, o :: os => (h.set i o).write is os
  | _, _ => h

/-- The attributes after a method left the contents `N` behind. -/
def HModel.withAttrs (M : HModel S) (N : PModel K S) : HModel S :=
  { M with hasInputs := N.hasInputs, r := N.r, m := N.m, intrusive := N.intrusive, solver := N.solver,
           p := N.p, s := N.s }

/-- A method of the parametric model that changes its operators in place: `f` tells what happens to the
contents (`fit`, `refit`: _parametric.py:304-392; operators are changed by `op._clear()`,
`op.set_entries(..)`, `op.set_training_parameters(..)` and `op.parameter_dimension = ..`). -/
def HModel.call (f : PModel K S → PModel K S × Except Err Unit) (h : Store K) (M : HModel S) :
    Store K × HModel S × Except Err Unit :=
  let out := f (M.view h)
  (h.write (M.slots.map HSlot.ref) out.1.ops, M.withAttrs out.1, out.2)

/-- The list comprehension of `evaluate`: `op.evaluate(parameter) if is_parametric(op) else op`
(_parametric.py:408-413). -/
def evalRefs [Semiring K] (lib : ItpLib K) (mu : Par K) : Store K → List Nat → Store K × Except Err (List Nat)
  | h, [] => (h, .ok [])
  | h, i :: is =>
    if (h.get i).isParam then
      match (h.get i).evaluate lib mu with
      | (o, .error e) => (h.set i o, .error e)
      | (o, .ok op) => match evalRefs lib mu ((h.set i o).alloc (.np op)) is with
        | (h', .error e) => (h', .error e)
        | (h', .ok js) => (h', .ok (h.next :: js))
    else match evalRefs lib mu h is with
      | (h', .error e) => (h', .error e)
      | (h', .ok js) => (h', .ok (i :: js))

/-- The attributes of an evaluated model (`_FrozenDiscreteModel`, `_FrozenContinuousModel`):
_nonparametric.py:1076-1122. -/
structure HFrozen where
  slots : List HSlot
  hasInputs : Bool
  r : Option Nat
  m : Option Nat
  intrusive : Bool
  deriving DecidableEq, Repr

/-- The contents of a nonparametric operator object. The other case does not occur in evaluated models. -/
def POp.plain : POp K → Op K
  | .np o => o
  | .aff a => ⟨a.kind, none⟩
  | .itp t => ⟨t.kind, none⟩

/-- The contents of an evaluated model; `solver` is always `None` (_nonparametric.py:1085-1087). -/
def HFrozen.view (S : Type) (h : Store K) (F : HFrozen) : Model K S :=
  ⟨F.slots.map fun x => ⟨(h.get x.ref).plain, x.infer⟩, F.hasInputs, F.r, F.m, F.intrusive, none⟩

/-- The attributes of the model object whose contents are `N` and whose operators are the objects `refs`. -/
def frozenAt (refs : List Nat) (N : Model K S) : HFrozen :=
  ⟨zipWith HSlot.mk refs (N.slots.map Slot.infer), N.hasInputs, N.r, N.m, N.intrusive⟩

/-- `evaluate(parameter)`: _parametric.py:395-413. -/
def HModel.evaluate [Semiring K] (lib : ItpLib K) (mu : Par K) (h : Store K) (M : HModel S) :
    Store K × Except Err HFrozen :=
  match evalRefs lib mu h (M.slots.map HSlot.ref) with
  | (h', .error e) => (h', .error e)
  | (h', .ok refs) => (h', match frozen S (refs.map fun i => (h'.get i).plain) with
    | .error e => .error e
    | .ok N => .ok (frozenAt refs N))

/-- The list comprehension of `copy()` for an evaluated model: `[op.copy() for op in self.operators]`
(_base.py:317-320). -/
def copyRefs [AddMonoid K] : Store K → List Nat → Store K × Except Err (List Nat)
  | h, [] => (h, .ok [])
  | h, i :: is => match (h.get i).plain.copy with
    | .error e => (h, .error e)
    | .ok op => match copyRefs (h.alloc (.np op)) is with
      | (h', .error e) => (h', .error e)
      | (h', .ok js) => (h', .ok (h.next :: js))

/-- `copy()` of an evaluated model: _base.py:317-320. -/
def HFrozen.copy [AddMonoid K] (S : Type) (h : Store K) (F : HFrozen) : Store K × Except Err HFrozen :=
  match copyRefs h (F.slots.map HSlot.ref) with
  | (h', .error e) => (h', .error e)
  | (h', .ok refs) => (h', match frozen S (refs.map fun i => (h'.get i).plain) with
    | .error e => .error e
    | .ok N => .ok (frozenAt refs N))

/-- `fit(..)` of an evaluated model: _nonparametric.py:1093-1097. -/
def HFrozen.fit (h : Store K) (F : HFrozen) : Store K × HFrozen × Except Err Unit :=
  (h, F, .error .notImplemented)

/-- `solver = ..` of an evaluated model: _nonparametric.py:1089-1091. -/
def HFrozen.setSolver (h : Store K) (F : HFrozen) (_ : SolverArg S) : Store K × HFrozen × Except Err Unit :=
  (h, F, .ok ())

/-- `refit()` of an evaluated model: _nonparametric.py:249-270 (`None.solve()` raises `AttributeError`). -/
def HFrozen.refit (h : Store K) (F : HFrozen) : Store K × HFrozen × Except Err Unit :=
  if F.intrusive then (h, F, .ok ()) else (h, F, .error .attribute)

/-- A call on the parametric model. -/
inductive PCall (K S : Type)
  | fit (ps : List (Par K)) (states lhs : List (Arg K)) (inputs : Option (List (Arg K)))
  | refit
  | evaluate (mu : Par K)
  | solver (s : S)

/-- The effect of a call on the objects and the model. The solver can be set (to an object) if there is
something to learn: _base.py:332-343, 368. -/
def PCall.run [CommRing K] [LinearOrder K] (lib : ItpLib K) (I : SolverI K S) (x : Store K × HModel S) :
    PCall K S → Store K × HModel S
  | .fit ps states lhs inputs =>
    let out := x.2.call (fun N => N.fit lib I ps states lhs inputs) x.1
    (out.1, out.2.1)
  | .refit =>
    let out := x.2.call (fun N => N.refit lib I) x.1
    (out.1, out.2.1)
  | .evaluate mu => ((x.2.evaluate lib mu x.1).1, x.2)
  | .solver s => (x.1, if x.2.intrusive then x.2 else { x.2 with solver := some s })

end Opinf
