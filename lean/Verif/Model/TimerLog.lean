import Verif.Model.Core

/-!
# What timed blocks print and log

Model of the output of `TimedBlock`, /repo/src/opinf/utils/_timer.py, and of the parts of the standard library it uses:
`sys.stdout` and the root logger of `logging`. Times are left out of the messages; messages are given without trailing
white space (`message.rstrip()`), together with the two line ends derived from them (_timer.py:104-110). A timer is made and
entered at the same moment (`with TimedBlock(...):`).
-/

namespace Opinf

open List

/-- An exception: whether its type is `TimeoutError`, and its text. -/
structure LExc where
  timeout : Bool
  text : String
  deriving DecidableEq, Repr

/-- Something printed to the screen. -/
inductive Out
  | text (t : String)
  | start (msg : String) (newline : Bool)
  | done (newline : Bool)
  | newline
  | exc (e : LExc)
  | already (path : String)
  | logging (path : String)
  deriving DecidableEq, Repr

/-- A message of the logger. -/
inductive Rec
  | done (msg : String)
  | timedOut (msg : String)
  | begun (msg : String)
  | failed (e : LExc)
  deriving DecidableEq, Repr

/-- A handler of the root logger. -/
inductive Handler
  | stderr
  | file (path : String)
  deriving DecidableEq, Repr

/-- A program as far as printing and logging are concerned; `attempt` is `try: p except Exception: pass`. -/
inductive LProg
  | done
  | print (t : String)
  | seq (p q : LProg)
  | fail (e : LExc)
  | block (msg : String) (front back limited : Bool) (p : LProg)
  | addLogfile (path : String)
  | attempt (p : LProg)
  | setVerbose (b : Bool)
  | setRebuffer (b : Bool)
  deriving DecidableEq, Repr

/-- The class attributes `verbose` and `rebuffer`; the root logger (whether its level is `INFO`, by default it is
`WARNING`, and its handlers); what has been logged, with the handler, in order; the buffers printed to (number 0 is the
screen), and which of them is `sys.stdout`. -/
structure LState where
  verbose : Bool
  rebuffer : Bool
  info : Bool
  handlers : List Handler
  logged : List (Handler × Rec)
  bufs : List (List Out)
  cur : Nat
  deriving DecidableEq, Repr

/-- `print`. -/
def LState.put (s : LState) (xs : List Out) : LState := { s with bufs := s.bufs.modify s.cur (· ++ xs) }

/-- The module functions of `logging` call `basicConfig()` if the root logger has no handlers, which adds one for
`stderr`. -/
def LState.configured (s : LState) : LState := if s.handlers.isEmpty then { s with handlers := [.stderr] } else s

/-- `logging.info` and `logging.error` (the latter is above the default level). -/
def LState.log (s : LState) (error : Bool) (r : Rec) : LState :=
  let s := s.configured
  if s.info || error then { s with logged := s.logged ++ s.handlers.map fun h => (h, r) } else s

/-- `__enter__`: _timer.py:136-146; the second result is the number of the new buffer, if there is one. -/
def LState.enter (s : LState) (msg : String) (front : Bool) : LState × Option Nat :=
  if s.rebuffer then
    let s' := { s with bufs := s.bufs ++ [[]], cur := s.bufs.length }
    (if s.verbose then s'.put [.start msg front] else s', some s.bufs.length)
  else (if s.verbose then s.put [.start msg front] else s, none)

/-- `if self.rebuffer: self._reset_stdout()`: _timer.py:131-134; without a buffer `None.getvalue` raises
`AttributeError`. -/
def LState.reset (s : LState) (orig : Nat) (own : Option Nat) : LState × Except LExc Unit :=
  if s.rebuffer then
    match own with
    | none => (s, .error ⟨false, "'NoneType' object has no attribute 'getvalue'"⟩)
    | some i => (({ s with cur := orig } : LState).put (s.bufs.getD i []), .ok ())
  else (s, .ok ())

/-- `__exit__` after an exception: _timer.py:154-171. -/
def LState.exitFailed (s : LState) (msg : String) (limited : Bool) (orig : Nat) (own : Option Nat) (e : LExc) :
    LState × Except LExc Unit :=
  if limited && e.timeout then
    let s := if msg = "" then s else s.put [.newline]
    let r := (s.log false (.timedOut msg)).reset orig own
    (r.1, match r.2 with
      | .error e' => .error e'
      | .ok () => .error ⟨true, "TIMED OUT"⟩)
  else
    let r := (((s.put [.exc e]).log false (.begun msg)).log true (.failed e)).reset orig own
    (r.1, match r.2 with
      | .error e' => .error e'
      | .ok () => .error e)

/-- `__exit__` without an exception: _timer.py:172-179. -/
def LState.exitDone (s : LState) (msg : String) (back : Bool) (orig : Nat) (own : Option Nat) :
    LState × Except LExc Unit :=
  let s := if s.verbose && decide (msg ≠ "") then s.put [.done back] else s
  (s.log false (.done msg)).reset orig own

/-- Whether a handler is one for the file: _timer.py:194-198. -/
def Handler.writes (abs : String → String) (path : String) : Handler → Bool
  | .file p => decide (abs p = abs path)
  | .stderr => false

/-- `add_logfile`: _timer.py:181-210. `abs` is `os.path.abspath`; `writable` says whether the file can be opened. -/
def LState.addLogfile (abs : String → String) (writable : String → Bool) (s : LState) (path : String) :
    LState × Except LExc Unit :=
  if s.handlers.any (Handler.writes abs path) then
    (if s.verbose then s.put [.already (abs path)] else s, .ok ())
  else if writable (abs path) then
    let s : LState := { s with handlers := s.handlers ++ [Handler.file (abs path)], info := true }
    (if s.verbose then s.put [.logging (abs path)] else s, .ok ())
  else (s, .error ⟨false, "cannot open the file"⟩)

/-- Execution of a program. -/
def LProg.exec (abs : String → String) (writable : String → Bool) : LProg → LState → LState × Except LExc Unit
  | .done, s => (s, .ok ())
  | .print t, s => (s.put [.text t], .ok ())
  | .seq p q, s =>
    match p.exec abs writable s with
    | (s, .error e) => (s, .error e)
    | (s, .ok ()) => q.exec abs writable s
  | .fail e, s => (s, .error e)
  | .block msg front back limited p, s =>
    let x := s.enter msg front
    match p.exec abs writable x.1 with
    | (s', .error e) => s'.exitFailed msg limited s.cur x.2 e
    | (s', .ok ()) => s'.exitDone msg back s.cur x.2
  | .addLogfile path, s => s.addLogfile abs writable path
  | .attempt p, s => ((p.exec abs writable s).1, .ok ())
  | .setVerbose b, s => ({ s with verbose := b }, .ok ())
  | .setRebuffer b, s => ({ s with rebuffer := b }, .ok ())

/-- What a file contains. -/
def LState.contents (s : LState) (path : String) : List Rec :=
  (s.logged.filter fun x => x.1 = .file path).map Prod.snd

end Opinf
