import Verif.Model.Core

/-!
# Timed blocks

Model of `TimedBlock`, /repo/src/opinf/utils/_timer.py. Time is counted in ticks; a process has one alarm clock
(`signal.alarm`), a wall clock and a clock for processor time (`time.process_time`). An alarm that is due while the
process works or sleeps interrupts it at that moment; an alarm due exactly at the end of a step interrupts it.
Printing, logging and buffering of the output are not modelled.
-/

namespace Opinf

open List

/-- What a program does as far as time is concerned. `block` is `with TimedBlock(timelimit=limit): p`. -/
inductive Prog
  | done
  | work (ticks : Nat)
  | sleep (ticks : Nat)
  | seq (p q : Prog)
  | fail (e : Err)
  | block (limit : Option Int) (p : Prog)
  deriving DecidableEq, Repr

/-- Wall clock, processor time, and the time at which the alarm is due, if one is set. -/
structure Clock where
  wall : Nat
  cpu : Nat
  alarm : Option Nat
  deriving DecidableEq, Repr

/-- Working or sleeping for some ticks; the signal handler raises `TimeoutError`: _timer.py:123-125. -/
def Clock.step (c : Clock) (ticks : Nat) (busy : Bool) : Clock × Except Err Unit :=
  match c.alarm with
  | some a =>
    if a ≤ c.wall + ticks then
      (⟨max a c.wall, if busy then c.cpu + (a - c.wall) else c.cpu, none⟩, .error .timeout)
    else (⟨c.wall + ticks, if busy then c.cpu + ticks else c.cpu, some a⟩, .ok ())
  | none => (⟨c.wall + ticks, if busy then c.cpu + ticks else c.cpu, none⟩, .ok ())

/-- `timelimit = max(int(timelimit), 1)`: _timer.py:107-109. -/
def effectiveLimit (limit : Option Int) : Option Nat := limit.map fun l => (max l 1).toNat

/-- `__enter__`: _timer.py:132-142. `signal.alarm` replaces an alarm set before. -/
def Clock.enter (c : Clock) (limit : Option Int) : Clock :=
  match effectiveLimit limit with
  | some l => { c with alarm := some (c.wall + l) }
  | none => c

/-- `__exit__`: _timer.py:144-147; `signal.alarm(0)` cancels the alarm, whoever set it. -/
def Clock.exit (c : Clock) (limit : Option Int) : Clock :=
  match effectiveLimit limit with
  | some _ => { c with alarm := none }
  | none => c

/-- Execution of a program. `__exit__` raises again whatever was raised inside the block: _timer.py:149-167. -/
def Prog.exec : Prog → Clock → Clock × Except Err Unit
  | .done, c => (c, .ok ())
  | .work n, c => c.step n true
  | .sleep n, c => c.step n false
  | .seq p q, c => match p.exec c with
    | (c, .error e) => (c, .error e)
    | (c, .ok ()) => q.exec c
  | .fail e, c => (c, .error e)
  | .block limit p, c =>
    let out := p.exec (c.enter limit)
    (out.1.exit limit, out.2)

/-- `timer.elapsed` after `with timer: p` if it was `old` before: _timer.py:144-175; the difference of the
processor times, assigned only if nothing was raised. -/
def elapsedAfter (old : Option Nat) (limit : Option Int) (p : Prog) (c : Clock) : Option Nat :=
  match p.exec (c.enter limit) with
  | (c', .ok ()) => some (c'.cpu - c.cpu)
  | (_, .error _) => old

end Opinf
