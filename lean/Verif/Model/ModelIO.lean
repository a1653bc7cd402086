import Verif.Model.Hdf5
import Verif.Model.Mono

/-!
# Files of nonparametric models

`save()` and `load()` of operators and of nonparametric models: /repo/src/opinf/operators/_base.py:785-819,
/repo/src/opinf/models/mono/_nonparametric.py:399-472. The groups `operator_0`, `operator_1`, ... are the numbered
subgroups, followed by the group `solver`, if there is one. The entries of a constant operator are a matrix with one
column, as everywhere in the model. Operators with sparse entries are not modelled.
-/

namespace Opinf

open List

variable {K S : Type}

/-- `self.__class__.__name__` of an operator. -/
def OpKind.className : OpKind → String
  | .const => "ConstantOperator"
  | .lin => "LinearOperator"
  | .kron .quad => "QuadraticOperator"
  | .kron .cubic => "CubicOperator"
  | .kron .quartic => "QuarticOperator"
  | .inp => "InputOperator"
  | .stateInp => "StateInputOperator"

/-- `getattr(operators, name)`: a name that is not there raises `AttributeError`. -/
def OpKind.ofClassName (s : String) : Except Err OpKind :=
  if s = "ConstantOperator" then .ok .const
  else if s = "LinearOperator" then .ok .lin
  else if s = "QuadraticOperator" then .ok (.kron .quad)
  else if s = "CubicOperator" then .ok (.kron .cubic)
  else if s = "QuarticOperator" then .ok (.kron .quartic)
  else if s = "InputOperator" then .ok .inp
  else if s = "StateInputOperator" then .ok .stateInp
  else .error .attribute

/-- `op.save(group)`: _base.py:785-800. -/
def Op.saveH5 (o : Op K) : H5 K :=
  .node ([("meta.class", .str o.kind.className)] ++ (match o.entries with
    | none => []
    | some E => [("entries", .mat E)])) []

/-- `OpClass.load(group)`: _base.py:802-819. -/
def Op.loadH5 [AddMonoid K] (kind : OpKind) (h : H5 K) : Except Err (Op K) := do
  let name ← h.str "meta.class"
  if name ≠ kind.className then throw .type
  match h.get? "entries" with
  | none => return ⟨kind, none⟩
  | some (.mat E) => do return ⟨kind, some (← kind.setEntries E)⟩
  | some _ => throw .value

/-- One operator of a model file: _nonparametric.py:456-458. -/
def loadOperator [AddMonoid K] (h : H5 K) (i : Nat) : Except Err (Op K) :=
  match h.subs[i]? with
  | none => .error .key
  | some g => do
    let name ← g.str "meta.class"
    let kind ← OpKind.ofClassName name
    asLoadError (Op.loadH5 kind g)

/-- The indices of the operators with the property. -/
def indicesOf (p : Slot K → Bool) (slots : List (Slot K)) : List Nat :=
  (range slots.length).filter fun i => (slots[i]?.map p).getD false

/-- `model.save(group)`: _nonparametric.py:411-433. The solver is written last; if this raises, the operators are in the
file already. -/
def Model.saveH5 (saveSolver : S → Saved K) (M : Model K S) : Saved K :=
  let vals : List (String × H5Val K) := [("meta.num_operators", .nat M.slots.length), ("meta.r", .nat (M.r.getD 0)),
    ("meta.m", .nat (M.m.getD 0)), ("indices_infer", .nats (indicesOf Slot.infer M.slots)),
    ("indices_known", .nats (indicesOf (fun s => !s.infer) M.slots))]
  match M.solver with
  | none => (.node vals (M.ops.map Op.saveH5), .ok ())
  | some s => (.node vals (M.ops.map Op.saveH5 ++ [(saveSolver s).1]), (saveSolver s).2)

/-- `if r := ..: model.state_dimension = r`: _nonparametric.py:466-467. -/
def Model.restoreDim (N : Model K S) (r : Nat) : Except Err (Model K S) :=
  if r = 0 then .ok N else match N.setStateDim r with
    | (_, .error e) => .error e
    | (N, .ok ()) => .ok N

/-- `if (m := ..) and model._has_inputs: model.input_dimension = m`: _nonparametric.py:468-470. -/
def Model.restoreInputs (N : Model K S) (m : Nat) : Except Err (Model K S) :=
  if m ≠ 0 ∧ N.hasInputs then match N.setInputDim m with
    | (_, .error e) => .error e
    | (N, .ok ()) => .ok N
  else .ok N

/-- The index list replaces the one found by the constructor. -/
def setIndices (infer : List Nat) (slots : List (Slot K)) : List (Slot K) :=
  zipWith (fun s i => { s with infer := infer.contains i }) slots (range slots.length)

/-- `Model.load(group)`: _nonparametric.py:435-472. The list `indices_known` is read as well; since `save` writes
complementary lists, membership in it is not stored separately here. The group `solver` is not read. -/
def Model.loadH5 [AddMonoid K] (plain : S) (l2 : Int → S) (h : H5 K) : Except Err (Model K S) := do
  let n ← h.nat "meta.num_operators"
  let infer ← h.nats "indices_infer"
  let _ ← h.nats "indices_known"
  let ops ← (range n).mapM (loadOperator h)
  let N ← Model.construct plain l2 (ops.map OpArg.op) (.none : SolverArg S)
  let r ← h.nat "meta.r"
  let N ← Model.restoreDim { N with slots := setIndices infer N.slots } r
  let m ← h.nat "meta.m"
  N.restoreInputs m

end Opinf
