import Verif.Model.ParamModel

/-!
# Copies and files of parametric models

`src/opinf/models/mono/_base.py` (copy), `src/opinf/models/mono/_parametric.py` (interpolatory models:
constructor, `_from_models`, `set_interpolator`, `save`, `load`, `copy`).

The class `InterpolatorClass` that an interpolatory model was constructed with is stored at the model
besides the class each operator uses; it only matters for copies and files.
-/

namespace Opinf

open List

variable {K S : Type}

/-- `op.copy()` for each of the three types of operators: operators/_base.py:780-783, _affine.py:418-433,
_interpolate.py:471-478. -/
def POp.copy [AddMonoid K] [LinearOrder K] (lib : ItpLib K) : POp K → Except Err (POp K)
  | .np o => o.copy.map .np
  | .aff a => a.copy.map .aff
  | .itp t => (t.copy lib).map .itp

/-- `copy()` of a parametric model: models/mono/_base.py:317-320. The solver is passed on; `plain` is the
solver that replaces `None`. -/
def PModel.copy [AddMonoid K] [LinearOrder K] (lib : ItpLib K) (plain : S) (M : PModel K S) :
    Except Err (PModel K S) :=
  match M.ops.mapM (POp.copy lib) with
  | .error e => .error e
  | .ok ops => PModel.construct ops (M.solver.getD plain)

/-- An interpolatory model together with the interpolator class stored at the model. -/
structure IObj (K S : Type) where
  model : IModel K S
  cls : Option ItpClass

/-- `InterpModel(operators, solver, InterpolatorClass)`: _parametric.py:1024-1029. -/
def IObj.construct [LinearOrder K] (lib : ItpLib K) (ops : List (POp K)) (solver : S)
    (c : Option ItpClass) : Except Err (IObj K S) :=
  (IModel.construct lib ops solver c).map fun M => ⟨M, c⟩

/-- `_from_models(parameters, models, InterpolatorClass)`: _parametric.py:1031-1079; `plain` is the default
solver. -/
def IObj.fromModels [AddMonoid K] [LinearOrder K] (lib : ItpLib K) (plain : S) (ps : List (Par K))
    (models : List (Model K S)) (c : Option ItpClass) : Except Err (IObj K S) :=
  (IModel.fromModels lib plain ps models c).map fun M => ⟨M, c⟩

/-- `set_interpolator(InterpolatorClass)`: _parametric.py:1081-1100; the class is stored last. -/
def IObj.setInterpolator [LinearOrder K] (lib : ItpLib K) (M : IObj K S) (c : Option ItpClass) :
    IObj K S × Except Err Unit :=
  let out := setAllClasses lib c M.model.base.slots
  let N : IModel K S := { M.model with base := { M.model.base with slots := out.1 } }
  match out.2 with
  | .error e => (⟨N, M.cls⟩, .error e)
  | .ok () => (⟨N, c⟩, .ok ())

/-- `copy()` of an interpolatory model: _parametric.py:1311-1316. No solver is passed. -/
def IObj.copy [AddMonoid K] [LinearOrder K] (lib : ItpLib K) (plain : S) (M : IObj K S) :
    Except Err (IObj K S) :=
  match M.model.base.ops.mapM (POp.copy lib) with
  | .error e => .error e
  | .ok ops => IObj.construct lib ops plain M.cls

/-- The file written by `save`: dimensions (0 for `None`), the name of the class stored at the model, the
operators to infer, and the groups of the operators. -/
structure IModelFile (K : Type) where
  r : Nat
  m : Nat
  cls : Option ItpClass
  infer : List Bool
  ops : List (InterpFile K)

/-- `save(savefile)`: _parametric.py:1185-1239. Operators that are not interpolated do not occur. -/
def IObj.save (M : IObj K S) : IModelFile K :=
  ⟨M.model.base.r.getD 0, M.model.base.m.getD 0, M.cls, M.model.base.slots.map PSlot.infer,
    M.model.base.ops.filterMap fun o => o.interp?.map Interp.save⟩

/-- Whether a class is one that `load` does not find by its name. -/
def needsClass (c : Option ItpClass) : Bool := c.any fun c => !c.inScipy

/-- Whether `save` warns that the class has to be passed to `load`: _parametric.py:1214-1239 for the class
of the model, which suppresses the warnings of the operators (_interpolate.py:501-509). -/
def IObj.saveWarns (M : IObj K S) : Bool :=
  needsClass M.cls || M.model.base.ops.any fun o => match o.interp? with
    | some t => needsClass t.cls
    | none => false

/-- `load` restores which operators are to be inferred: _parametric.py:1301-1302. -/
def restoreInfer (infer : List Bool) (M : PModel K S) : PModel K S :=
  { M with slots := zipWith (fun s b => { s with infer := b }) M.slots infer }

/-- The end of `load`: the dimensions are set, unless zero: _parametric.py:1303-1306. -/
def restoreStateDim (r : Nat) (M : PModel K S) : Except Err (PModel K S) :=
  if r = 0 then .ok M else finish (M.setStateDim r)

/-- See `restoreStateDim`: _parametric.py:1305-1306. -/
def restoreInputDim (m : Nat) (M : PModel K S) : Except Err (PModel K S) :=
  if m ≠ 0 ∧ M.hasInputs then finish (M.setInputDim m) else .ok M

/-- `load(loadfile, InterpolatorClass)`: _parametric.py:1241-1309. The model is constructed without an
`InterpolatorClass`; `plain` is the default solver. -/
def IObj.load [AddMonoid K] [LinearOrder K] (lib : ItpLib K) (plain : S) (f : IModelFile K)
    (given : Option ItpClass) : Except Err (IObj K S) :=
  match loadClass f.cls given with
  | .error e => .error e
  | .ok c => match f.ops.mapM fun g => Interp.load lib g.kind g c with
    | .error e => .error e
    | .ok ts => match IObj.construct lib (ts.map POp.itp) plain none with
      | .error e => .error e
      | .ok N =>
        match restoreStateDim f.r (restoreInfer f.infer N.model.base) with
        | .error e => .error e
        | .ok B => match restoreInputDim f.m B with
          | .error e => .error e
          | .ok B => .ok { N with model := { N.model with base := B } }

end Opinf
