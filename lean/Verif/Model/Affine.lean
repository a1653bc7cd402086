import Verif.Model.Mono

/-!
# Affine parametric operators

Models `/repo/src/opinf/operators/_affine.py` and the shared parts of
`/repo/src/opinf/operators/_base.py` (`ParametricOpInfOperator`).

Simplifications: entries are dense two-dimensional arrays (the vector of a constant operator is an
`r x 1` array, as in `Verif.Model.Operators`); one-dimensional blocks passed with `fromblock=True` are
not modelled; warnings are not modelled.
-/

namespace Opinf

open List

variable {K : Type}

/-- A parameter value, or the value of a coefficient function: a scalar or a one-dimensional array. -/
inductive Par (K : Type)
  | scalar (x : K)
  | vec (xs : List K)
  deriving DecidableEq, Repr

/-- `np.atleast_1d(parameter).shape[0]` (_base.py:960), which is also the parameter dimension that
`_set_parameter_dimension_from_values([parameter])` extracts (_base.py:1226-1240). -/
def Par.dim : Par K → Nat
  | .scalar _ => 1
  | .vec xs => xs.length

/-- The argument `coeffs` of the constructor: an integer, a callable, an iterable whose elements are
callables (`some`) or not (`none`), or anything else. -/
inductive CoefArg (K : Type)
  | int (n : Int)
  | func (f : Par K → Except Err (Par K))
  | list (fs : List (Option (Par K → Except Err K)))
  | other

/-- The argument `entries`: a list of arrays (`fromblock=False`) or their horizontal concatenation
(`fromblock=True`). -/
inductive EntArg (K : Type)
  | list (As : List (Mat K))
  | block (B : Mat K)

/-- An affine operator object: the operator class it evaluates to, the number of terms, the
coefficient function, the parameter dimension and the entries. -/
structure Affine (K : Type) where
  kind : OpKind
  nterms : Nat
  coeffs : Par K → Except Err (Par K)
  p : Option Nat
  entries : Option (List (Mat K))

/-- `np.split(B, n, axis=-1)` of a two-dimensional array: `n` equal parts, `ZeroDivisionError` for
`n = 0` and `ValueError` if the division is not exact. -/
def npSplit (B : Mat K) (n : Nat) : Except Err (List (Mat K)) :=
  if n = 0 then .error .zeroDivision
  else if B.ncols % n ≠ 0 then .error .value
  else .ok ((range n).map fun i => B.colSlice (i * (B.ncols / n)) ((i + 1) * (B.ncols / n)))

/-- `_check_shape_consistency(entries, ..)`: _base.py:1244-1248. -/
def sameShapes : List (Mat K) → Bool
  | [] => true
  | A :: As => As.all fun B => B.nrows == A.nrows && B.ncols == A.ncols

/-- The list of arrays that `set_entries(entries, fromblock)` works with, given the number `n` of
arrays it expects, each passed through `OperatorClass(A).entries`: _affine.py:206-228,
_interpolate.py:219-238. -/
def parseEntries [AddMonoid K] (kind : OpKind) (n : Nat) (e : EntArg K) :
    Except Err (List (Mat K)) := do
  let As ← (match e with
    | .list As => Except.ok As
    | .block B => npSplit B n)
  if !sameShapes As then throw .value
  if As.length ≠ n then throw .value
  As.mapM kind.setEntries

/-- `set_entries(entries, fromblock)`: _affine.py:192-228. -/
def Affine.setEntries [AddMonoid K] (a : Affine K) (e : EntArg K) : Except Err (Affine K) :=
  match parseEntries a.kind a.nterms e with
  | .error err => .error err
  | .ok As => .ok { a with entries := some As }

/-- `np.array([func(parameter) for func in functions])`: _affine.py:52-53. -/
def vectorized (fs : List (Par K → Except Err K)) (mu : Par K) : Except Err (Par K) :=
  match fs.mapM fun f => f mu with
  | .error e => .error e
  | .ok xs => .ok (.vec xs)

/-- `__init__` up to the entries: _affine.py:108-153. -/
def Affine.start (kind : OpKind) (c : CoefArg K) (nterms : Option Int) : Except Err (Affine K) :=
  if nterms.any (· < 1) then .error .type
  else match c with
    | .int n => if n > 0 then
          .ok ⟨kind, n.toNat, fun mu => .ok mu, some n.toNat, none⟩
        else .error .type
    | .other => .error .type
    | .list fs => if fs.any Option.isNone then .error .type
        else .ok ⟨kind, fs.length, vectorized (fs.filterMap id), none, none⟩
    | .func f => match nterms with
      | none => .error .value
      | some n => .ok ⟨kind, n.toNat, f, none, none⟩

/-- `AffineOperator(coeffs, nterms, entries, fromblock)`: _affine.py:108-156. -/
def Affine.make [AddMonoid K] (kind : OpKind) (c : CoefArg K) (nterms : Option Int)
    (e : Option (EntArg K)) : Except Err (Affine K) :=
  match Affine.start kind c nterms with
  | .error err => .error err
  | .ok a => match e with
    | none => .ok a
    | some e => a.setEntries e

/-- `parameter_dimension` setter: _base.py:1266-1276. -/
def setParamDim (old : Option Nat) (p : Nat) : Except Err (Option Nat) :=
  if old.isSome then .error .attribute
  else if p < 1 then .error .value
  else .ok (some p)

/-- The coefficients used by `evaluate` and `datablock`: _affine.py:252-254, 411-413. A scalar is
accepted if there is one term only; iterating over a scalar raises `TypeError`. -/
def Affine.thetas (a : Affine K) (mu : Par K) : Except Err (List K) :=
  match a.coeffs mu with
  | .error e => .error e
  | .ok (.vec xs) => .ok xs
  | .ok (.scalar x) => if a.nterms = 1 then .ok [x] else .error .type

/-- `c * A`. -/
def Mat.scale [Mul K] (c : K) (A : Mat K) : Mat K := ⟨A.nrows, A.ncols, A.rows.map (vsmul c)⟩

/-- `A + B` for arrays of the same shape. -/
def Mat.plus [Add K] (A B : Mat K) : Mat K := ⟨A.nrows, A.ncols, zipWith vadd A.rows B.rows⟩

/-- `sum([tm * A for tm, A in zip(theta_mus, self.entries)])`: _affine.py:256. The sum of an empty list
is the number `0`, which every `set_entries` turns into a `1 x 1` array. -/
def weightedSum [Semiring K] (th : List K) (As : List (Mat K)) : Mat K :=
  match zipWith Mat.scale th As with
  | [] => ⟨1, 1, [[0]]⟩
  | T :: Ts => Ts.foldl Mat.plus T

/-- The first lines of `evaluate`: an unknown parameter dimension is taken from the argument. -/
def Affine.learnDim (a : Affine K) (mu : Par K) : Affine K :=
  if a.p.isNone then { a with p := some mu.dim } else a

/-- `evaluate(parameter)`: _affine.py:236-257 (with the check _base.py:956-961). -/
def Affine.evaluate [Semiring K] (a : Affine K) (mu : Par K) : Affine K × Except Err (Op K) :=
  match a.entries with
  | none => (a, .error .attribute)
  | some As =>
    let a := a.learnDim mu
    if some mu.dim ≠ a.p then (a, .error .value)
    else (a, match a.thetas mu with
      | .error e => .error e
      | .ok th => match a.kind.setEntries (weightedSum th As) with
        | .error e => .error e
        | .ok E => .ok ⟨a.kind, some E⟩)

/-- `apply(parameter, state, input_)`: _base.py:982-1016. -/
def Affine.apply [CommSemiring K] (a : Affine K) (mu : Par K) (s : Arg K) (u : Option (Arg K)) :
    Affine K × Except Err (Arg K) :=
  ((a.evaluate mu).1, match (a.evaluate mu).2 with
    | .error e => .error e
    | .ok o => o.apply s u)

/-- `galerkin(Vr, Wr)`: _affine.py:260-317. The bound method `self.coeffs` is passed on, the parameter
dimension is not. -/
def Affine.galerkin [Field K] [DecidableEq K] (solve : List (List K) → Mat K → Except Err (Mat K))
    (a : Affine K) (rV r : Nat) (V W : List (List K)) : Except Err (Affine K) :=
  match a.entries with
  | none => .error .attribute
  | some As => match As.mapM fun A => a.kind.galerkin solve A rV r V W with
    | .error e => .error e
    | .ok Bs => Affine.make a.kind (.func a.coeffs) (some a.nterms) (some (.list Bs))

/-- `operator_dimension(s, r, m)`: _affine.py:320-342. -/
def Affine.dim (a : Affine K) (r m : Nat) : Nat := a.nterms * a.kind.dim r m

/-- One block column (transposed): `np.vstack([theta * Di for theta in theta_mus])`, given by
snapshots. `np.vstack([])` raises `ValueError`. -/
def affineBlock1 [CommSemiring K] (a : Affine K) (mu : Par K) (Q : List (List K))
    (U : Option (List (List K))) : Except Err (Nat × List (List K)) :=
  match a.thetas mu with
  | .error e => .error e
  | .ok [] => .error .value
  | .ok th => .ok (th.length, (a.kind.block Q U).map fun d => th.flatMap fun t => vsmul t d)

/-- `np.hstack(blockcolumns)`: all block columns must have the same height. -/
def hstackCols (bs : List (Nat × List (List K))) : Except Err (List (List K)) :=
  match bs with
  | [] => .error .value
  | b :: bs => if bs.all fun c => c.1 == b.1 then .ok (b.2 ++ bs.flatMap Prod.snd) else .error .value

/-- `datablock(parameters, states, inputs).T`: _affine.py:344-415; one entry per parameter value, each
with its snapshots and inputs. -/
def Affine.block [CommSemiring K] (a : Affine K)
    (data : List (Par K × List (List K) × Option (List (List K)))) : Except Err (List (List K)) :=
  match data.mapM fun x => affineBlock1 a x.1 x.2.1 x.2.2 with
  | .error e => .error e
  | .ok bs => hstackCols bs

/-- `_clear()`: _base.py:1221-1224. -/
def Affine.clear (a : Affine K) : Affine K := { a with p := none, entries := none }

/-- Setting the parameter dimension of a freshly built operator, if there is one to set: the end of
`copy` (_affine.py:431-432) and `load` (_affine.py:502-503). -/
def Affine.restoreDim (a : Affine K) : Option Nat → Except Err (Affine K)
  | none => .ok a
  | some p => match setParamDim a.p p with
    | .error e => .error e
    | .ok q => .ok { a with p := q }

/-- `copy()`: _affine.py:418-433. -/
def Affine.copy [AddMonoid K] (a : Affine K) : Except Err (Affine K) :=
  match Affine.make a.kind (.func a.coeffs) (some a.nterms) (a.entries.map .list) with
  | .error e => .error e
  | .ok b => b.restoreDim a.p

/-- The content of the file written by `save`: _affine.py:435-462. -/
structure AffineFile (K : Type) where
  kind : OpKind
  p : Option Nat
  nterms : Nat
  entries : Option (List (Mat K))
  deriving DecidableEq, Repr

/-- `save(savefile)`. -/
def Affine.save (a : Affine K) : AffineFile K := ⟨a.kind, a.p, a.nterms, a.entries⟩

/-- `load(loadfile, coeffs)`: _affine.py:464-504, called on the class evaluating to `kind`. -/
def Affine.load [AddMonoid K] (kind : OpKind) (f : AffineFile K) (c : CoefArg K) :
    Except Err (Affine K) :=
  if f.kind ≠ kind then .error .type
  else match Affine.make kind c (some f.nterms) (f.entries.map .list) with
    | .error e => .error e
    | .ok b => b.restoreDim f.p

end Opinf
