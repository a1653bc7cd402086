import Verif.Model.ParamModel

/-!
# Looking up the operators of a model

/repo/src/opinf/models/mono/_base.py:123-153. No operator class with an accessor derives from another one, so that
`isinstance(op, OpClass)` compares classes. (`PolynomialOperator` is not modelled; the accessors never find it.)
-/

namespace Opinf

variable {K S : Type}

/-- `_get_operator_of_type(OpClass)`: _nonparametric.py:80-84; `None` at the end of the loop. -/
def Model.opOfType (M : Model K S) (k : OpKind) : Option (Op K) := M.ops.find? fun o => o.kind = k

/-- `_get_operator_of_type(OpClass)` of a parametric model: _parametric.py:79-87. The class of a parametric operator
is `_OperatorClass`. -/
def PModel.opOfType (M : PModel K S) (k : OpKind) : Option (POp K) := M.ops.find? fun o => o.kind = k

/-- The six accessors `c_`, `A_`, `H_`, `G_`, `B_`, `N_`: _base.py:123-153. -/
inductive Accessor
  | c | A | H | G | B | N
  deriving DecidableEq, Repr

/-- The class of an accessor: _base.py:123-153. -/
def Accessor.kind : Accessor → OpKind
  | .c => .const
  | .A => .lin
  | .H => .kron .quad
  | .G => .kron .cubic
  | .B => .inp
  | .N => .stateInp

/-- `model.c_`, ..., `model.N_`: _base.py:123-153. -/
def Model.get (M : Model K S) (a : Accessor) : Option (Op K) := M.opOfType a.kind

/-- The same for a parametric model. -/
def PModel.get (M : PModel K S) (a : Accessor) : Option (POp K) := M.opOfType a.kind

end Opinf
