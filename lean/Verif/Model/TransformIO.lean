import Verif.Model.Transform
import Verif.Model.Hdf5

/-! # Saving and loading of transformers, setters and equality: /repo/src/opinf/pre -/

namespace Opinf

open List

variable {K : Type}

/-- `str(self.name)`. -/
def nameAttr (name : Option String) : String := name.getD "None"

/-- `None if name == "None" else name`. -/
def readName (s : String) : Option String := if s = "None" then none else some s

/-! ### ShiftTransformer -/

/-- `save`: /repo/src/opinf/pre/_shiftscale.py:347-351. -/
def Shift.save (s : Shift K) : Saved K :=
  (.node [("meta.name", .str (nameAttr s.name)), ("reference_snapshot", .arr s.qbar)] [], .ok ())

/-- `load`: _shiftscale.py:353-360. -/
def Shift.load (h : H5 K) : Except Err (Shift K) := asLoadError do
  let name ← h.str "meta.name"
  let q ← h.arr "reference_snapshot"
  return ⟨q, readName name⟩

/-! ### ScaleTransformer -/

/-- The attribute `state_dimension`, written only if it is known. -/
def dimAttr (n : Option Nat) : List (String × H5Val K) :=
  match n with
  | none => []
  | some n => [("meta.state_dimension", .nat n)]

/-- `save`: _shiftscale.py:631-638. -/
def Scale.save (s : Scale K) : Saved K :=
  (.node (("meta.name", .str (nameAttr s.name)) :: dimAttr s.n ++ [("scaler", .arr s.scl.entries)]) [],
    .ok ())

/-- `scaler = scaler[0]` if there is one entry: _shiftscale.py:645-647. -/
def scalerOf : List K → Coef K
  | [a] => .num a
  | v => .arr v

/-- `load`: _shiftscale.py:640-651. -/
def Scale.load [Zero K] [DecidableEq K] (h : H5 K) : Except Err (Scale K) := asLoadError do
  let name ← h.str "meta.name"
  let v ← h.arr "scaler"
  let out ← Scale.make (scalerOf v) (readName name)
  match out.scl.isArr, h.get? "meta.state_dimension" with
  | false, some (.nat n) => return { out with n := some n }
  | _, _ => return out

/-! ### NullTransformer -/

/-- `save`: /repo/src/opinf/pre/_multi.py:308-313. -/
def Null.save (s : Null) : Saved K :=
  (.node (("meta.name", .str (nameAttr s.name)) :: dimAttr s.n) [], .ok ())

/-- `load`: _multi.py:315-323. -/
def Null.load (h : H5 K) : Except Err Null := asLoadError do
  let name ← h.str "meta.name"
  match h.get? "meta.state_dimension" with
  | some (.nat n) => return ⟨some n, readName name⟩
  | _ => return ⟨none, readName name⟩

/-! ### ShiftScaleTransformer -/

/-- `mean_` setter for a one-dimensional array: _shiftscale.py:915-925. -/
def Sst.setMean (s : Sst K) (mu : List K) : Sst K × Except Err Unit :=
  if !s.centering then (s, .error .attribute)
  else
    let s := { s with n := some (s.n.getD mu.length) }
    if s.n = some mu.length then ({ s with mean := some mu }, .ok ()) else (s, .error .value)

/-- The check in the setters of `scale_` and `shift_`: _shiftscale.py:939-945, 959-965. -/
def Sst.checkCoef (s : Sst K) (c : Coef K) : Sst K × Except Err Unit :=
  if s.scaling.isNone then (s, .error .attribute)
  else if !s.byrow then (s, .ok ())
  else match c with
    | .num _ => (s, .error .value)
    | .arr v =>
      let s := { s with n := some (s.n.getD v.length) }
      (s, if s.n = some v.length then .ok () else .error .value)

/-- `scale_` setter: _shiftscale.py:934-946. -/
def Sst.setScale (s : Sst K) (c : Coef K) : Sst K × Except Err Unit :=
  match s.checkCoef c with
  | (s, .error e) => (s, .error e)
  | (s, .ok ()) => ({ s with alpha := some c }, .ok ())

/-- `shift_` setter: _shiftscale.py:955-967. -/
def Sst.setShift (s : Sst K) (c : Coef K) : Sst K × Except Err Unit :=
  match s.checkCoef c with
  | (s, .error e) => (s, .error e)
  | (s, .ok ()) => ({ s with beta := some c }, .ok ())

/-- `__eq__` of two `ShiftScaleTransformer` objects: _shiftscale.py:969-989. Arrays are compared as
lists (numpy's comparison of different shapes is not modelled). -/
def Sst.beq [DecidableEq K] (s t : Sst K) : Bool :=
  s.centering == t.centering && s.scaling == t.scaling && s.byrow == t.byrow && s.n == t.n &&
  (match s.centering, s.mean with
    | true, some mu => t.mean == some mu
    | _, _ => true) &&
  (match s.scaling.isSome, s.alpha with
    | true, some a => t.alpha == some a && t.beta.isSome && s.beta == t.beta
    | _, _ => true)

/-- The value of the attribute `scaling`. -/
def Scaling.str : Scaling → String
  | .standard => "standard"
  | .minmax => "minmax"
  | .minmaxsym => "minmaxsym"
  | .maxabs => "maxabs"
  | .maxabssym => "maxabssym"
  | .maxnorm => "maxnorm"
  | .maxnormsym => "maxnormsym"

/-- The check of `scaling` in the constructor: _shiftscale.py:854-865. -/
def Scaling.ofStr (s : String) : Except Err Scaling :=
  match [Scaling.standard, .minmax, .minmaxsym, .maxabs, .maxabssym, .maxnorm, .maxnormsym].find?
    (fun sc => sc.str == s) with
  | some sc => .ok sc
  | none => .error .value

/-- The attributes written first: _shiftscale.py:1296-1306. -/
def Sst.metaVals (s : Sst K) : List (String × H5Val K) :=
  [("meta.centering", .flag s.centering),
   ("meta.scaling", match s.scaling with | some sc => .str sc.str | none => .flag false),
   ("meta.byrow", .flag s.byrow), ("meta.verbose", .flag s.verbose),
   ("meta.name", .str (nameAttr s.name)),
   ("meta.state_dimension", match s.n with | some n => .nat n | none => .flag false)]

/-- The mean: _shiftscale.py:1307-1311. -/
def Sst.meanVals (s : Sst K) : List (String × H5Val K) :=
  match s.centering, s.mean with
  | true, some mu => [("transformation/mean_", .arr mu)]
  | _, _ => []

/-- `save`: _shiftscale.py:1294-1320. With `scale_` set and `shift_` missing, the second
`create_dataset` raises `TypeError` after the first data set was written. -/
def Sst.save (s : Sst K) : Saved K :=
  match s.scaling.isSome, s.alpha with
  | true, some a => match s.beta with
    | some b => (.node (s.metaVals ++ s.meanVals ++ [("transformation/scale_", .arr a.entries),
        ("transformation/shift_", .arr b.entries)]) [], .ok ())
    | none => (.node (s.metaVals ++ s.meanVals ++ [("transformation/scale_", .arr a.entries)]) [],
        .error .type)
  | _, _ => (.node (s.metaVals ++ s.meanVals) [], .ok ())

/-- `hf[key][ind]` with `ind = slice(None) if byrow else 0`: _shiftscale.py:1345-1347. -/
def readCoef (byrow : Bool) (v : List K) : Except Err (Coef K) :=
  if byrow then .ok (.arr v) else match v with
    | a :: _ => .ok (.num a)
    | [] => .error .index

/-- The attribute `scaling`, `None` if it is `False`. -/
def readScaling (v : Option (H5Val K)) : Except Err (Option Scaling) :=
  match v with
  | some (.str sc) => (Scaling.ofStr sc).map some
  | some (.flag false) => .ok none
  | _ => .error .key

/-- The attribute `state_dimension`, `None if not n else n`: _shiftscale.py:1338-1339. -/
def readDim (v : Option (H5Val K)) : Except Err (Option Nat) :=
  match v with
  | some (.nat n) => .ok (if n = 0 then none else some n)
  | some (.flag false) => .ok none
  | _ => .error .key

/-- Assigning a property: an exception ends the loading. -/
def assigned {S : Type} (r : S × Except Err Unit) : Except Err S := r.2.map fun _ => r.1

/-- _shiftscale.py:1340-1341. -/
def Sst.loadMean (h : H5 K) (t : Sst K) : Except Err (Sst K) :=
  match t.centering, h.get? "transformation/mean_" with
  | true, some (.arr mu) => assigned (t.setMean mu)
  | _, _ => .ok t

/-- _shiftscale.py:1342-1345. -/
def Sst.loadScale (h : H5 K) (t : Sst K) : Except Err (Sst K) :=
  match t.scaling.isSome, h.get? "transformation/scale_" with
  | true, some (.arr v) => do
    let t ← assigned (t.setScale (← readCoef t.byrow v))
    let b ← h.arr "transformation/shift_"
    assigned (t.setShift (← readCoef t.byrow b))
  | _, _ => .ok t

/-- `load`: _shiftscale.py:1322-1349. -/
def Sst.load (h : H5 K) : Except Err (Sst K) := asLoadError do
  let scl ← readScaling (h.get? "meta.scaling")
  let name ← h.str "meta.name"
  let centering ← h.flag "meta.centering"
  let byrow ← h.flag "meta.byrow"
  let verbose ← h.flag "meta.verbose"
  let t ← Sst.make centering scl byrow (readName name) verbose
  let n ← readDim (h.get? "meta.state_dimension")
  let t ← Sst.loadMean h { t with n := n }
  Sst.loadScale h t

/-! ### Several transformers -/

/-- The persistence methods of transformers of several classes `C`. -/
structure TfIO (K C S : Type) where
  cls : S → C
  name : S → Option String
  setName : S → Option String → S
  save : S → Saved K
  load : C → H5 K → Except Err S

/-- The classes of the built-in transformers for a single variable. -/
inductive BasicCls
  | shift | scale | shiftScale | null
  deriving DecidableEq, Repr

/-- The built-in transformers for a single variable. -/
def basicIO [Zero K] [DecidableEq K] : TfIO K BasicCls (Basic K) where
  cls s := match s with
    | .inl _ => .shift
    | .inr (.inl _) => .scale
    | .inr (.inr (.inl _)) => .shiftScale
    | .inr (.inr (.inr _)) => .null
  name s := match s with
    | .inl s => s.name
    | .inr (.inl s) => s.name
    | .inr (.inr (.inl s)) => s.name
    | .inr (.inr (.inr s)) => s.name
  setName s n := match s with
    | .inl s => .inl { s with name := n }
    | .inr (.inl s) => .inr (.inl { s with name := n })
    | .inr (.inr (.inl s)) => .inr (.inr (.inl { s with name := n }))
    | .inr (.inr (.inr s)) => .inr (.inr (.inr { s with name := n }))
  save s := match s with
    | .inl s => s.save
    | .inr (.inl s) => s.save
    | .inr (.inr (.inl s)) => s.save
    | .inr (.inr (.inr s)) => s.save
  load c h := match c with
    | .shift => (Shift.load h).map .inl
    | .scale => (Scale.load h).map fun s => .inr (.inl s)
    | .shiftScale => (Sst.load h).map fun s => .inr (.inr (.inl s))
    | .null => (Null.load h).map fun s => .inr (.inr (.inr s))

/-- `for i, tf in enumerate(...): tf.save(hf.create_group(...))`: the groups written until a `save`
raises. -/
def saveEach {S : Type} (save : S → Saved K) : List S → List (H5 K) × Except Err Unit
  | [] => ([], .ok ())
  | t :: ts => match save t with
    | (h, .error e) => ([h], .error e)
    | (h, .ok ()) => let r := saveEach save ts; (h :: r.1, r.2)

/-- `[Classes[i].load(hf[...]) for i in range(num)]`. -/
def loadEach {C S : Type} (load : C → H5 K → Except Err S) (n : Nat) (cs : List C) (hs : List (H5 K)) :
    Except Err (List S) :=
  (range n).mapM fun i => match cs[i]?, hs[i]? with
    | some c, some h => load c h
    | _, _ => .error .key

/-- `TransformerPipeline.save`: /repo/src/opinf/pre/_multi.py:135-141. -/
def pipeSave {C S : Type} (io : TfIO K C S) (name : Option String) (ts : List S) : Saved K :=
  let r := saveEach io.save ts
  (.node [("meta.name", .str (nameAttr name)), ("meta.num_transformers", .nat ts.length)] r.1, r.2)

/-- `TransformerPipeline.load`: _multi.py:143-172; the name and the transformers. The name is
`str(meta.attrs["name"])`. -/
def pipeLoad {C S : Type} (I : TfI K S) (io : TfIO K C S) (cs : List C) (h : H5 K) :
    Except Err (Option String × List S) := asLoadError do
  let name ← h.str "meta.name"
  let n ← h.nat "meta.num_transformers"
  if cs.length ≠ n then throw .value
  let ts ← loadEach io.load n cs h.subs
  return (some name, ← pipeMake I ts)

/-- `tf.name = f"variable {i}"` for transformers without a name: _multi.py:382-383. -/
def defaultNames {C S : Type} (io : TfIO K C S) (ts : List S) : List S :=
  ts.mapIdx fun i t => if (io.name t).isNone then io.setName t (some s!"variable {i}") else t

/-- `TransformerMulti.save`: _multi.py:707-711. -/
def multiSave {C S : Type} (io : TfIO K C S) (ts : List S) : Saved K :=
  let r := saveEach io.save ts
  (.node [("num_variables", .nat ts.length)] r.1, r.2)

/-- `TransformerMulti.load` with a list of classes: _multi.py:713-744. -/
def multiLoad {C S : Type} (I : TfI K S) (io : TfIO K C S) (cs : List C) (h : H5 K) :
    Except Err (List S) := asLoadError do
  let n ← h.nat "num_variables"
  if cs.length ≠ n then throw .value
  let ts ← loadEach io.load n cs h.subs
  multiMake I (defaultNames io ts) none

/-- `==` between built-in transformers: only `ShiftScaleTransformer` defines `__eq__`; for all others it is
the identity of objects, here `same`. -/
def Basic.pyEq [DecidableEq K] (same : Bool) (s t : Basic K) : Bool :=
  match s, t with
  | .inr (.inr (.inl s)), .inr (.inr (.inl t)) => s.beq t
  | _, _ => same

/-- `TransformerMulti.__eq__`: _multi.py:445-456. -/
def multiEq {S : Type} (eq : S → S → Bool) (ts us : List S) : Bool :=
  ts.length == us.length && (zip ts us).all fun p => eq p.1 p.2

end Opinf
