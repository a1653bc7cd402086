import Verif.Model.VerifyOp
import Verif.Model.ParamModel

/-!
# `verify()` of parametric operators

/repo/src/opinf/operators/_base.py:1125-1202 (`ParametricOperatorTemplate.verify`).

Simplifications: the random test parameter is an argument; a test parameter has at most one axis; the printed messages
are left out.
-/

namespace Opinf

open List

variable {K P O : Type}

/-- What `verify()` uses of a parametric operator class and of the operators it evaluates to: whether `_OperatorClass`
is a class of nonparametric operators, the dimensions, `evaluate()` (which may change the object), whether its result
is an instance of `_OperatorClass` and nonparametric, and the dimensions of the result. -/
structure ParamOpI (K P O : Type) where
  classOK : P → Bool
  stateDim : P → Option Int
  inputDim : P → Option (Option Int)
  paramDim : P → Option Nat
  evaluate : P → Par K → P × Except Err O
  instanceOf : P → O → Bool
  nonparametric : O → Bool
  outState : O → Option Int
  outInput : O → Option (Option Int)

/-- The test parameter: the given one, or drawn numbers (a single one if the parameter dimension is `None`):
_base.py:1164-1165. -/
def testParam (p : Option Nat) (given : Option (Par K)) (drawn : Nat → List K) (single : K) : Par K :=
  match given with
  | some mu => mu
  | none => match p with
    | some p => .vec (drawn p)
    | none => .scalar single

/-- `np.shape(testparam) == (self.parameter_dimension,)`: _base.py:1166-1169. -/
def hasParamShape (p : Option Nat) (mu : Par K) : Bool :=
  match p, mu.shape with
  | some p, some n => n == p
  | _, _ => false

/-- The checks of the result of `evaluate()`: _base.py:1173-1202. -/
def ParamOpI.verifyOut (I : ParamOpI K P O) (a b : P) (op : O) (m : Option Nat) : Except Err Unit := do
  insist (I.instanceOf a op)
  insist (I.nonparametric op)
  insist (I.outState op == I.stateDim b)
  insist (I.outInput op == m.map fun m : Nat => some (m : Int))

/-- The dimensions: _base.py:1143-1161. -/
def ParamOpI.dims (I : ParamOpI K P O) (a : P) : Except Err (Nat × Option Nat) := do
  let r ← positiveDim (I.stateDim a)
  match I.inputDim a with
  | none => return (r, none)
  | some d => return (r, some (← positiveDim d))

/-- The steps before `evaluate()`; returns the input dimension and the test parameter. -/
def ParamOpI.prepare (I : ParamOpI K P O) (a : P) (given : Option (Par K)) (drawn : Nat → List K) (single : K) :
    Except Err (Option Nat × Par K) := do
  insist (I.classOK a)
  let rm ← I.dims a
  let mu := testParam (I.paramDim a) given drawn single
  if hasParamShape (I.paramDim a) mu then return (rm.2, mu) else throw .value

/-- `verify(testparam)`: _base.py:1125-1202. Returns the operator as it is afterwards. -/
def ParamOpI.verify (I : ParamOpI K P O) (a : P) (given : Option (Par K)) (drawn : Nat → List K) (single : K) :
    P × Except Err Unit :=
  match I.prepare a given drawn single with
  | .error e => (a, .error e)
  | .ok (m, mu) => ((I.evaluate a mu).1, match (I.evaluate a mu).2 with
    | .error e => .error e
    | .ok op => I.verifyOut a (I.evaluate a mu).1 op m)

/-- The dimensions of an operator of the package with the given class and array. -/
def opInput (kind : OpKind) (E : Option (Mat K)) : Option (Option Int) :=
  if kind.hasInputs then some ((Op.inputDim ⟨kind, E⟩).map Int.ofNat) else none

/-- The affine operators of the package. -/
def affineParI [Semiring K] : ParamOpI K (Affine K) (Op K) where
  classOK _ := true
  stateDim a := (POp.aff a).stateDim.map Int.ofNat
  inputDim a := opInput a.kind (POp.aff a).first
  paramDim a := a.p
  evaluate := Affine.evaluate
  instanceOf a o := o.kind == a.kind
  nonparametric _ := true
  outState o := o.stateDim.map Int.ofNat
  outInput o := opInput o.kind o.entries

/-- The interpolatory operators of the package. -/
def interpParI [AddMonoid K] (lib : ItpLib K) : ParamOpI K (Interp K) (Op K) where
  classOK _ := true
  stateDim t := (POp.itp t).stateDim.map Int.ofNat
  inputDim t := opInput t.kind (POp.itp t).first
  paramDim t := t.p
  evaluate t mu := (t, t.evaluate lib mu)
  instanceOf t o := o.kind == t.kind
  nonparametric _ := true
  outState o := o.stateDim.map Int.ofNat
  outInput o := opInput o.kind o.entries

end Opinf
