import Verif.Model.Hdf5

/-! # C51, C52: saving and loading files -/

namespace Opinf

open List

variable {K : Type}

/-! ### Specification -/

/-- The operations of a history: a `save` call with the contents that the object writes, and a `load`
call (whose result is not of interest for the history). -/
inductive FileOp (K : Type)
  | save (path : String) (overwrite : Bool) (body : Saved K)
  | load (path : String)

/-- Executing an operation. -/
def FileOp.run (fs : FS K) : FileOp K → FS K
  | .save path ow body => (saveFile fs path ow body).1
  | .load _ => fs

/-- Executing a history. -/
def runFiles (fs : FS K) (ops : List (FileOp K)) : FS K := ops.foldl FileOp.run fs

/-- The contents that a reader expects at `path`, read from the history alone: each save with permission
to overwrite replaces the contents, a save without permission counts only if there is nothing yet. -/
def expected (path : String) (start : Option (H5 K)) : List (FileOp K) → Option (H5 K)
  | [] => start
  | .save p ow body :: ops =>
    expected path (if p = path ∧ (ow = true ∨ start = none) then some body.1 else start) ops
  | .load _ :: ops => expected path start ops

/-! ### C51 -/

/-- C51: saving without permission to overwrite onto an existing file raises `FileExistsError` and changes
nothing. -/
theorem C51_existing_file_kept (fs : FS K) (path : String) (body : Saved K) (h : H5 K) (hex : fs path = some h) :
    (saveFile fs path false body).2.1 = .error .fileExists ∧ (saveFile fs path false body).1 = fs := by
  simp [saveFile, hex]

/-- C51: over any history a file that exists at the start keeps its contents unless there is a save to
this path with `overwrite=True`. -/
theorem C51_history_keeps_files (ops : List (FileOp K)) (fs : FS K) (path : String) (h : H5 K)
    (hex : fs path = some h) (hno : ∀ body, FileOp.save path true body ∉ ops) :
    runFiles fs ops path = some h := by
  induction ops generalizing fs with
  | nil => exact hex
  | cons op ops ih =>
    simp only [runFiles, foldl_cons]
    apply ih
    · cases op with
      | load p => exact hex
      | save p ow body =>
        simp only [FileOp.run, saveFile]
        by_cases hp : p = path
        · subst hp
          cases ow with
          | true => exact absurd (mem_cons_self ..) (hno body)
          | false => simp [hex]
        · split
          · exact hex
          · simp only [FS.write]
            rw [if_neg (Ne.symm hp)]
            exact hex
    · intro body hb
      exact hno body (mem_cons_of_mem _ hb)

/-- C51: a save changes at most the file it names, and no file ever disappears. -/
theorem C51_save_changes_one_file (fs : FS K) (path : String) (ow : Bool) (body : Saved K) :
    (∀ p, p ≠ path → (saveFile fs path ow body).1 p = fs p) ∧
      ∀ p, (fs p).isSome → ((saveFile fs path ow body).1 p).isSome := by
  constructor
  · intro p hp
    simp only [saveFile]
    split
    · rfl
    · simp [FS.write, hp]
  · intro p hp
    simp only [saveFile]
    split
    · exact hp
    · simp only [FS.write]
      split
      · rfl
      · exact hp

/-- C51: a file name without the `.h5` ending gives a warning, but is saved like any other. -/
theorem C51_warns_iff_ending (fs : FS K) (path : String) (ow : Bool) (body : Saved K) :
    (saveFile fs path ow body).2.2 = true ↔ h5Ending path = false := by
  simp only [saveFile]
  split <;> simp

/-- C51: loading a path without file raises `FileNotFoundError`; every other failure is reported as
`LoadfileFormatError`. -/
theorem C51_load_errors {α : Type} (fs : FS K) (path : String) (body : H5 K → Except Err α) (e : Err) :
    loadFile fs path body = .error e ↔
      (fs path = none ∧ e = .fileNotFound) ∨
      (e = .loadfileFormat ∧ ∃ h e', fs path = some h ∧ body h = .error e') := by
  unfold loadFile
  cases hp : fs path with
  | none => simp [eq_comm]
  | some h =>
    cases hb : body h with
    | ok x => simp [asLoadError, hb]
    | error e' => simp [asLoadError, hb, eq_comm]

/-! ### C52 -/

/-- C52: after any history the contents of every file are those the history alone predicts. -/
theorem C52_contents (ops : List (FileOp K)) (fs : FS K) (path : String) :
    runFiles fs ops path = expected path (fs path) ops := by
  induction ops generalizing fs with
  | nil => rfl
  | cons op ops ih =>
    simp only [runFiles, foldl_cons]
    rw [show foldl FileOp.run (op.run fs) ops = runFiles (op.run fs) ops from rfl, ih]
    cases op with
    | load p => rfl
    | save p ow body =>
      simp only [expected]
      congr 1
      simp only [FileOp.run, saveFile]
      by_cases hp : p = path
      · subst hp
        cases hf : fs p with
        | none => simp [FS.write]
        | some h => cases ow <;> simp [FS.write, hf]
      · rw [if_neg (c := p = path ∧ _) fun h => hp h.1]
        split
        · rfl
        · simp [FS.write, Ne.symm hp]

/-- C52: if the last save to a path was with `overwrite=True` (or created the file) and the object's `save`
and `load` methods form a round trip, then `load` returns that object; it can be repeated. -/
theorem C52_load_last_saved {S : Type} (save : S → Saved K) (load : H5 K → Except Err S) (s : S)
    (hrt : load (save s).1 = .ok s) (before after : List (FileOp K)) (fs : FS K) (path : String) (ow : Bool)
    (hw : ow = true ∨ runFiles fs before path = none)
    (hno : ∀ body, FileOp.save path true body ∉ after) :
    loadFile (runFiles fs (before ++ .save path ow (save s) :: after)) path load = .ok s := by
  have hsplit : runFiles fs (before ++ .save path ow (save s) :: after) =
      runFiles (saveFile (runFiles fs before) path ow (save s)).1 after := by
    simp [runFiles, foldl_append, FileOp.run]
  have hsaved : (saveFile (runFiles fs before) path ow (save s)).1 path = some (save s).1 := by
    simp only [saveFile]
    rcases hw with rfl | h
    · simp [FS.write]
    · simp [FS.write, h]
  rw [hsplit]
  unfold loadFile
  rw [C51_history_keeps_files after _ path _ hsaved hno]
  simp [asLoadError, hrt]

/-- C52, negation: a save with `overwrite=True` that raises has already truncated the file, so the object
saved before is lost: the file has only what was written before the exception. -/
theorem C52_failed_save_destroys (fs : FS K) (path : String) (old partial_ : H5 K) (e : Err)
    (_hold : fs path = some old) :
    (saveFile fs path true (partial_, .error e)).2.1 = .error e ∧
      (saveFile fs path true (partial_, .error e)).1 path = some partial_ := by
  simp [saveFile, FS.write]

/-! ### Examples -/

/-- A file system with one file. -/
def exFs : FS ℚ := fun p => if p = "a.h5" then some (.node [("x", .nat 1)] []) else none

-- The hypotheses of the theorems can be met.
example : (exFs "a.h5").map H5.vals = some [("x", .nat 1)] := by decide +kernel

example : (runFiles exFs [.save "a.h5" false (.node [("x", .nat 2)] [], .ok ()), .load "a.h5",
    .save "b.h5" true (.node [("x", .nat 3)] [], .ok ())] "a.h5").map H5.vals = some [("x", .nat 1)] := by
  decide +kernel

example : ((runFiles exFs [.save "a.h5" true (.node [("x", .nat 2)] [], .ok ()), .load "a.h5",
    .save "b.h5" true (.node [("x", .nat 3)] [], .ok ()), .save "a.h5" false (.node [] [], .ok ())]
    "a.h5").map H5.vals) = some [("x", .nat 2)] := by
  decide +kernel

example : h5Ending "a.h5" = true ∧ h5Ending "a.npz" = false := by decide +kernel

end Opinf
