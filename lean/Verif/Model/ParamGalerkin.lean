import Verif.Model.ParamModel

/-!
# Galerkin projection of parametric models

Models `galerkin()` of `/repo/src/opinf/models/mono/_base.py` for parametric and interpolated models. The
class of the result is that of the model; its solver is the default one.
-/

namespace Opinf

open List

variable {K S : Type}

/-- One entry of the list comprehension in `galerkin`: operators without entries are copied, the others
projected: _base.py:283-291 (with `is_uncalibrated`, operators/_base.py:1364-1366). -/
def POp.project [Field K] [LinearOrder K] (lib : ItpLib K)
    (solve : List (List K) → Mat K → Except Err (Mat K)) (o : POp K) (rV r : Nat)
    (V W : List (List K)) : Except Err (POp K) :=
  match o with
  | .np o => match o.entries with
    | none => o.copy.map .np
    | some E => (o.kind.galerkin solve E rV r V W).map fun F => .np ⟨o.kind, some F⟩
  | .aff a => match a.entries with
    | none => a.copy.map .aff
    | some _ => (a.galerkin solve rV r V W).map .aff
  | .itp t => match t.entries with
    | none => (t.copy lib).map .itp
    | some _ => (t.galerkin lib solve rV r V W).map .itp

/-- `model.galerkin(Vr, Wr)` of a parametric model: _base.py:239-292; `plain` is the default solver. -/
def PModel.galerkin [Field K] [LinearOrder K] (lib : ItpLib K)
    (solve : List (List K) → Mat K → Except Err (Mat K)) (plain : S) (M : PModel K S) (rV r : Nat)
    (V W : List (List K)) : Except Err (PModel K S) :=
  match M.ops.mapM fun o => o.project lib solve rV r V W with
  | .error e => .error e
  | .ok ops => PModel.construct ops plain

/-- `model.galerkin(Vr, Wr)` of a model whose operators are all interpolated: _base.py:239-292. The
constructor is called without an interpolator class. -/
def IModel.galerkin [Field K] [LinearOrder K] (lib : ItpLib K)
    (solve : List (List K) → Mat K → Except Err (Mat K)) (plain : S) (M : IModel K S) (rV r : Nat)
    (V W : List (List K)) : Except Err (IModel K S) :=
  match M.base.ops.mapM fun o => o.project lib solve rV r V W with
  | .error e => .error e
  | .ok ops => IModel.construct lib ops plain none

end Opinf
