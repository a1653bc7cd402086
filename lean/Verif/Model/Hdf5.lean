import Verif.Model.Core

/-! # HDF5 files: /repo/src/opinf/utils/_hdf5.py

A file (or group) has named values (attributes and data sets) and numbered subgroups. The numbered
subgroups `transformer_00`, `variable0`, `entries_0`, ... of the code are the list `subs`: number `i` is at
position `i`. Attributes of the data set `meta` have the prefix `meta.`. -/

namespace Opinf

open List

/-- An attribute or data set. -/
inductive H5Val (K : Type)
  | str (s : String)
  | flag (b : Bool)
  | nat (n : Nat)
  | arr (v : List K)
  | mat (A : Mat K)
  | int (n : Int)
  | cube (As : List (Mat K))
  | nats (l : List Nat)
  deriving DecidableEq

/-- The contents of a file or group. -/
inductive H5 (K : Type)
  | node (vals : List (String × H5Val K)) (subs : List (H5 K))

variable {K : Type}

/-- The named values. -/
def H5.vals : H5 K → List (String × H5Val K)
  | .node v _ => v

/-- The numbered subgroups. -/
def H5.subs : H5 K → List (H5 K)
  | .node _ s => s

/-- `hf[key]` or `hf.attrs[key]`, if present. -/
def H5.get? (h : H5 K) (key : String) : Option (H5Val K) := h.vals.lookup key

/-- `str(hf.attrs[key])`; a missing key raises `KeyError`, another type is not what was written. -/
def H5.str (h : H5 K) (key : String) : Except Err String :=
  match h.get? key with
  | some (.str s) => .ok s
  | _ => .error .key

/-- `bool(hf.attrs[key])`. -/
def H5.flag (h : H5 K) (key : String) : Except Err Bool :=
  match h.get? key with
  | some (.flag b) => .ok b
  | _ => .error .key

/-- `int(hf.attrs[key])`. -/
def H5.nat (h : H5 K) (key : String) : Except Err Nat :=
  match h.get? key with
  | some (.nat n) => .ok n
  | _ => .error .key

/-- `hf[key][:]` for a one-dimensional data set. -/
def H5.arr (h : H5 K) (key : String) : Except Err (List K) :=
  match h.get? key with
  | some (.arr v) => .ok v
  | _ => .error .key

/-- `hf[key][:]` for a two-dimensional data set. -/
def H5.mat (h : H5 K) (key : String) : Except Err (Mat K) :=
  match h.get? key with
  | some (.mat A) => .ok A
  | _ => .error .key

/-- `[int(i) for i in hf[key][:]]`. -/
def H5.nats (h : H5 K) (key : String) : Except Err (List Nat) :=
  match h.get? key with
  | some (.nats l) => .ok l
  | _ => .error .key

/-- What a `save` method did: the contents it wrote and whether it raised. -/
abbrev Saved (K : Type) := H5 K × Except Err Unit

/-- A file system: the contents of every path at which there is a file. -/
abbrev FS (K : Type) := String → Option (H5 K)

/-- Writing a file. -/
def FS.write (fs : FS K) (path : String) (h : H5 K) : FS K := fun p => if p = path then some h else fs p

/-- The file name ends with `.h5` (otherwise there is a warning): _hdf5.py:48-52. -/
def h5Ending (path : String) : Bool := path.toList.reverse.take 3 == ['5', 'h', '.']

/-- `with hdf5_savehandle(savefile, overwrite) as hf:` and the body of a `save` method, with whether
there is a warning: _hdf5.py:40-56, 82-87. The file is opened in mode `"w"`, so an existing file is
truncated before the body runs; what the body wrote before raising remains. -/
def saveFile (fs : FS K) (path : String) (overwrite : Bool) (body : Saved K) :
    FS K × Except Err Unit × Bool :=
  let warn := !h5Ending path
  if (fs path).isSome && !overwrite then (fs, .error .fileExists, warn)
  else (fs.write path body.1, body.2, warn)

/-- `__exit__` of the loading handle turns every exception into a `LoadfileFormatError`:
_hdf5.py:134-141. -/
def asLoadError {α : Type} (r : Except Err α) : Except Err α :=
  match r with
  | .ok x => .ok x
  | .error _ => .error .loadfileFormat

/-- `with hdf5_loadhandle(loadfile) as hf:` and the body of a `load` method: _hdf5.py:58-63, 90-141. -/
def loadFile {α : Type} (fs : FS K) (path : String) (body : H5 K → Except Err α) : Except Err α :=
  match fs path with
  | none => .error .fileNotFound
  | some h => asLoadError (body h)

end Opinf
