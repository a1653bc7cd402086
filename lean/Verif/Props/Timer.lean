import Verif.Model.Timer

/-!
# C53: time limits of timed blocks
-/

namespace Opinf

open List

/-! ### Specification -/

/-- No block inside has a time limit. -/
def Prog.Plain : Prog → Prop
  | .seq p q => p.Plain ∧ q.Plain
  | .block limit p => limit = none ∧ p.Plain
  | _ => True

/-- How long (in ticks of the wall clock) the program runs if nobody interrupts it, how much of it is processor
time, and how it ends. -/
def Prog.natural : Prog → Nat × Nat × Except Err Unit
  | .done => (0, 0, .ok ())
  | .work n => (n, n, .ok ())
  | .sleep n => (n, 0, .ok ())
  | .fail e => (0, 0, .error e)
  | .seq p q => match p.natural with
    | (t, u, .error e) => (t, u, .error e)
    | (t, u, .ok ()) => (t + q.natural.1, u + q.natural.2.1, q.natural.2.2)
  | .block _ p => p.natural

/-! ### No alarm is set -/

theorem exec_no_alarm (p : Prog) (hp : p.Plain) (c : Clock) (hc : c.alarm = none) :
    p.exec c = (⟨c.wall + p.natural.1, c.cpu + p.natural.2.1, none⟩, p.natural.2.2) := by
  induction p generalizing c with
  | done => obtain ⟨w, u, a⟩ := c; simp_all [Prog.exec, Prog.natural]
  | work n => simp [Prog.exec, Prog.natural, Clock.step, hc]
  | sleep n => simp [Prog.exec, Prog.natural, Clock.step, hc]
  | fail e => obtain ⟨w, u, a⟩ := c; simp_all [Prog.exec, Prog.natural]
  | seq p q ihp ihq =>
    simp only [Prog.Plain] at hp
    simp only [Prog.exec, Prog.natural, ihp hp.1 c hc]
    rcases hn : p.natural with ⟨t, u, x⟩
    cases x with
    | error e => rfl
    | ok _ =>
      simp only
      rw [ihq hp.2 _ rfl]
      simp only [Nat.add_assoc]
  | block limit p ih =>
    simp only [Prog.Plain] at hp
    obtain ⟨rfl, hp⟩ := hp
    simp only [Prog.exec, Clock.enter, Clock.exit, effectiveLimit, Option.map_none, Prog.natural]
    rw [ih hp c hc]

/-- With an alarm that is not yet due: either the program ends before it, or it is interrupted when it is due. -/
theorem exec_alarm (p : Prog) (hp : p.Plain) (c : Clock) (a : Nat) (hc : c.alarm = some a) (ha : c.wall < a) :
    (c.wall + p.natural.1 < a → p.exec c = (⟨c.wall + p.natural.1, c.cpu + p.natural.2.1, some a⟩, p.natural.2.2)) ∧
    (a ≤ c.wall + p.natural.1 → ∃ u, p.exec c = (⟨a, u, none⟩, .error .timeout)) := by
  induction p generalizing c with
  | done => obtain ⟨w, u, b⟩ := c; simp_all [Prog.exec, Prog.natural]
  | work n =>
    simp only [Prog.exec, Prog.natural, Clock.step, hc]
    refine ⟨fun h => by rw [if_neg (by omega)]; simp, fun h => ?_⟩
    rw [if_pos h, max_eq_left (by omega)]
    exact ⟨_, rfl⟩
  | sleep n =>
    simp only [Prog.exec, Prog.natural, Clock.step, hc]
    refine ⟨fun h => by rw [if_neg (by omega)]; simp, fun h => ?_⟩
    rw [if_pos h, max_eq_left (by omega)]
    exact ⟨_, rfl⟩
  | fail e => obtain ⟨w, u, b⟩ := c; simp_all [Prog.exec, Prog.natural]
  | seq p q ihp ihq =>
    simp only [Prog.Plain] at hp
    obtain ⟨h1, h2⟩ := ihp hp.1 c hc ha
    rcases hn : p.natural with ⟨t, u, x⟩
    rw [hn] at h1 h2
    simp only at h1 h2
    simp only [Prog.natural, hn]
    cases x with
    | error e =>
      simp only
      refine ⟨fun h => ?_, fun h => ?_⟩
      · simp only [Prog.exec, h1 h]
      · obtain ⟨u', hu⟩ := h2 h
        exact ⟨u', by simp only [Prog.exec, hu]⟩
    | ok _ =>
      simp only
      by_cases hlt : c.wall + t < a
      · obtain ⟨g1, g2⟩ := ihq hp.2 ⟨c.wall + t, c.cpu + u, some a⟩ rfl hlt
        simp only at g1 g2
        refine ⟨fun h => ?_, fun h => ?_⟩
        · simp only [Prog.exec, h1 hlt]
          rw [g1 (by omega)]
          simp only [Nat.add_assoc]
        · simp only [Prog.exec, h1 hlt]
          exact g2 (by omega)
      · refine ⟨fun h => by omega, fun h => ?_⟩
        obtain ⟨u', hu⟩ := h2 (by omega)
        exact ⟨u', by simp only [Prog.exec, hu]⟩
  | block limit p ih =>
    simp only [Prog.Plain] at hp
    obtain ⟨rfl, hp⟩ := hp
    simp only [Prog.exec, Clock.enter, Clock.exit, effectiveLimit, Option.map_none, Prog.natural]
    exact ih hp c hc ha

/-! ### C53 -/

/-- **C53.** Every limit counts as at least one tick: zero and negative limits are one. -/
theorem C53_limit (l : Int) : ∃ n, effectiveLimit (some l) = some n ∧ 1 ≤ n ∧ (1 ≤ l → (n : Int) = l) ∧
    (l ≤ 1 → n = 1) := by
  refine ⟨(max l 1).toNat, rfl, ?_, fun h => ?_, fun h => ?_⟩ <;> omega

/-- **C53.** After a block with a time limit no alarm is pending, however the block ended and whatever was inside. -/
theorem C53_no_alarm_left (l : Int) (p : Prog) (c : Clock) : ((Prog.block (some l) p).exec c).1.alarm = none := rfl

/-- **C53.** A block with a time limit and without limited blocks inside raises a timeout exactly if the limit elapses
inside: if the body, left alone, ends before the limit the block ends at the same time with the same outcome; otherwise
it is interrupted at the limit. An alarm set outside has no influence. -/
theorem C53_limit_enforced (l : Int) (n : Nat) (hn : effectiveLimit (some l) = some n) (p : Prog) (hp : p.Plain)
    (c : Clock) :
    (p.natural.1 < n → (Prog.block (some l) p).exec c =
      (⟨c.wall + p.natural.1, c.cpu + p.natural.2.1, none⟩, p.natural.2.2)) ∧
    (n ≤ p.natural.1 → ∃ u, (Prog.block (some l) p).exec c = (⟨c.wall + n, u, none⟩, .error .timeout)) := by
  obtain ⟨n', hn', h1, -⟩ := C53_limit l
  rw [hn] at hn'
  cases hn'
  obtain ⟨e1, e2⟩ := exec_alarm p hp ⟨c.wall, c.cpu, some (c.wall + n)⟩ (c.wall + n) rfl (by simp; omega)
  simp only at e1 e2
  have henter : c.enter (some l) = ⟨c.wall, c.cpu, some (c.wall + n)⟩ := by simp only [Clock.enter, hn]
  have hexit : ∀ d : Clock, d.exit (some l) = ⟨d.wall, d.cpu, none⟩ := by intro d; simp only [Clock.exit, hn]
  simp only [Prog.exec, henter, hexit]
  refine ⟨fun h => ?_, fun h => ?_⟩
  · rw [e1 (by omega)]
  · obtain ⟨u, hu⟩ := e2 (by omega)
    exact ⟨u, by rw [hu]⟩

/-- **C53.** Consequently, if the body raises no timeout itself, the block times out if and only if the body takes at
least as long as the limit. -/
theorem C53_timeout_iff (l : Int) (n : Nat) (hn : effectiveLimit (some l) = some n) (p : Prog) (hp : p.Plain)
    (hown : p.natural.2.2 ≠ .error .timeout) (c : Clock) :
    ((Prog.block (some l) p).exec c).2 = .error .timeout ↔ n ≤ p.natural.1 := by
  obtain ⟨h1, h2⟩ := C53_limit_enforced l n hn p hp c
  constructor
  · intro h
    by_contra hlt
    rw [h1 (by omega)] at h
    exact hown h
  · intro h
    obtain ⟨u, hu⟩ := h2 h
    rw [hu]

/-- **C53.** A block without a limit, with no limits around or inside, changes neither time nor outcome. -/
theorem C53_unlimited (p : Prog) (hp : p.Plain) (c : Clock) (hc : c.alarm = none) :
    (Prog.block none p).exec c = p.exec c := rfl

/-- **C53.** What was raised inside a block leaves it: a block never swallows an exception. -/
theorem C53_reraises (limit : Option Int) (p : Prog) (c : Clock) :
    ((Prog.block limit p).exec c).2 = (p.exec (c.enter limit)).2 := rfl

/-- **C53**, `elapsed`: after a block that completed (no limits inside, not interrupted) it is the processor time
of the body — the time the body worked, not the time it took. After an exception it keeps its earlier value. -/
theorem C53_elapsed_partial (old : Option Nat) (limit : Option Int) (p : Prog) (hp : p.Plain) (c : Clock)
    (hc : c.alarm = none) :
    (p.natural.2.2 = .ok () → (∀ n, effectiveLimit limit = some n → p.natural.1 < n) →
      elapsedAfter old limit p c = some p.natural.2.1) ∧
    (((Prog.block limit p).exec c).2 ≠ .ok () → elapsedAfter old limit p c = old) := by
  constructor
  · intro hok hn
    cases limit with
    | none =>
      simp only [elapsedAfter, Clock.enter, effectiveLimit, Option.map_none, exec_no_alarm p hp c hc, hok]
      congr 1; omega
    | some l =>
      obtain ⟨n, hl, h1, -⟩ := C53_limit l
      have henter : c.enter (some l) = ⟨c.wall, c.cpu, some (c.wall + n)⟩ := by simp only [Clock.enter, hl]
      have := (exec_alarm p hp ⟨c.wall, c.cpu, some (c.wall + n)⟩ (c.wall + n) rfl (by simp; omega)).1
        (by have := hn n hl; simp only; omega)
      simp only [elapsedAfter, henter, this, hok]
      congr 1; omega
  · intro h
    simp only [Prog.exec] at h
    simp only [elapsedAfter]
    rcases hx : p.exec (c.enter limit) with ⟨c', x⟩
    rw [hx] at h
    cases x with
    | error e => rfl
    | ok _ => exact absurd rfl h

/-- **C53 is false for nested blocks.** When an inner block with a limit completes, the limit of the outer block is
gone: whatever time is spent afterwards, the outer block does not time out. -/
theorem C53_nested_limit_lost (l l' : Int) (p q : Prog) (hp : p.Plain) (hq : q.Plain) (n' : Nat)
    (hn' : effectiveLimit (some l') = some n') (hpt : p.natural.1 < n') (hpo : p.natural.2.2 = .ok ()) (c : Clock) :
    (Prog.block (some l) (.seq (.block (some l') p) q)).exec c =
      (⟨c.wall + p.natural.1 + q.natural.1, c.cpu + p.natural.2.1 + q.natural.2.1, none⟩, q.natural.2.2) := by
  have h1 := (C53_limit_enforced l' n' hn' p hp (c.enter (some l))).1 hpt
  obtain ⟨n, hn, -⟩ := C53_limit l
  have hw : (c.enter (some l)).wall = c.wall := by simp [Clock.enter, hn]
  have hu : (c.enter (some l)).cpu = c.cpu := by simp [Clock.enter, hn]
  rw [hw, hu, hpo] at h1
  have h2 := exec_no_alarm q hq ⟨c.wall + p.natural.1, c.cpu + p.natural.2.1, none⟩ rfl
  have hexit : ∀ d : Clock, d.exit (some l) = ⟨d.wall, d.cpu, none⟩ := by intro d; simp only [Clock.exit, hn]
  have hseq : (Prog.seq (.block (some l') p) q).exec (c.enter (some l)) =
      q.exec ⟨c.wall + p.natural.1, c.cpu + p.natural.2.1, none⟩ := by
    rw [Prog.exec, h1]
  rw [Prog.exec, hseq, h2]
  simp only [hexit]

/-- The same, concretely: a limit of two ticks, an inner block with a limit of one tick that finishes at once, and then
a hundred ticks of work. -/
theorem C53_nested_witness :
    (Prog.block (some 2) (.seq (.block (some 1) .done) (.work 100))).exec ⟨0, 0, none⟩ = (⟨100, 100, none⟩, .ok ()) ∧
    (Prog.block (some 2) (.seq (.block none .done) (.work 100))).exec ⟨0, 0, none⟩ = (⟨2, 2, none⟩, .error .timeout) := by
  constructor <;> decide

/-- A larger limit inside also extends the limit outside. -/
example : (Prog.block (some 2) (.block (some 50) (.work 10))).exec ⟨0, 0, none⟩ = (⟨10, 10, none⟩, .ok ()) := by
  decide

/-- The example of the documentation, `with TimedBlock("how long?") as timer: time.sleep(2)`, reports no time. -/
theorem C53_elapsed_witness : elapsedAfter none none (.sleep 2) ⟨0, 0, none⟩ = some 0 := by decide

/-- Non-vacuity: a body that ends in time, one that does not, and one that raises. -/
example : (Prog.block (some 3) (.seq (.work 1) (.sleep 1))).exec ⟨5, 1, none⟩ = (⟨7, 2, none⟩, .ok ()) ∧
    (Prog.block (some 3) (.seq (.work 1) (.sleep 2))).exec ⟨5, 1, none⟩ = (⟨8, 2, none⟩, .error .timeout) ∧
    (Prog.block (some 3) (.seq (.work 1) (.fail .value))).exec ⟨5, 1, none⟩ = (⟨6, 2, none⟩, .error .value) ∧
    (Prog.seq (.work 1) (.sleep 1)).Plain := by
  refine ⟨by decide, by decide, by decide, trivial, trivial⟩

end Opinf
