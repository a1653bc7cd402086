import Verif.Model.TimerLog

/-!
# C123: what timed blocks print and log

Specification: `LProg.records`, the messages of a program in the order in which its blocks end, without loggers, handlers,
buffers and printing.
-/

namespace Opinf

open List

/-- The messages of the blocks of a program, and whether it ends with an exception, if all files can be opened. -/
def LProg.records : LProg → List Rec × Except LExc Unit
  | .fail e => ([], .error e)
  | .seq p q =>
    match p.records with
    | (l, .error e) => (l, .error e)
    | (l, .ok ()) => (l ++ q.records.1, q.records.2)
  | .block msg _ _ limited p =>
    match p.records with
    | (l, .error e) => if limited && e.timeout then (l ++ [.timedOut msg], .error ⟨true, "TIMED OUT"⟩)
      else (l ++ [.begun msg, .failed e], .error e)
    | (l, .ok ()) => (l ++ [.done msg], .ok ())
  | .attempt p => (p.records.1, .ok ())
  | _ => ([], .ok ())

/-- `rebuffer` is not changed. -/
def LProg.Steady : LProg → Prop
  | .seq p q => p.Steady ∧ q.Steady
  | .block _ _ _ _ p => p.Steady
  | .attempt p => p.Steady
  | .setRebuffer _ => False
  | _ => True

/-- The file is not added. -/
def LProg.Avoids (abs : String → String) (f : String) : LProg → Prop
  | .seq p q => p.Avoids abs f ∧ q.Avoids abs f
  | .block _ _ _ _ p => p.Avoids abs f
  | .attempt p => p.Avoids abs f
  | .addLogfile path => abs path ≠ f
  | _ => True

/-- No file has two handlers, and files are only attached by `add_logfile`. -/
structure LState.Wired (abs : String → String) (s : LState) : Prop where
  nodup : s.handlers.Nodup
  files : ∀ f, Handler.file f ∈ s.handlers → s.info = true ∧ abs f = f

/-! ### Steps -/

section

variable (abs : String → String)

theorem put_rest (s : LState) (xs : List Out) : (s.put xs).handlers = s.handlers ∧ (s.put xs).info = s.info ∧
    (s.put xs).logged = s.logged ∧ (s.put xs).rebuffer = s.rebuffer ∧ (s.put xs).verbose = s.verbose :=
  ⟨rfl, rfl, rfl, rfl, rfl⟩

/-- What matters for the log. -/
def SameLog (s t : LState) : Prop :=
  t.handlers = s.handlers ∧ t.info = s.info ∧ t.logged = s.logged ∧ t.rebuffer = s.rebuffer

theorem SameLog.refl (s : LState) : SameLog s s := ⟨rfl, rfl, rfl, rfl⟩

theorem SameLog.trans {s t u : LState} (h : SameLog s t) (h' : SameLog t u) : SameLog s u :=
  ⟨h'.1.trans h.1, h'.2.1.trans h.2.1, h'.2.2.1.trans h.2.2.1, h'.2.2.2.trans h.2.2.2⟩

theorem enter_sameLog (s : LState) (msg : String) (front : Bool) : SameLog s (s.enter msg front).1 ∧
    ((s.enter msg front).2.isSome = s.rebuffer) := by
  unfold LState.enter
  split
  · rename_i h
    simp only
    split <;> exact ⟨⟨rfl, rfl, rfl, rfl⟩, by simp [h]⟩
  · rename_i h
    simp only
    split <;> exact ⟨⟨rfl, rfl, rfl, rfl⟩, by simp [h]⟩

theorem reset_sameLog (s : LState) (orig : Nat) (own : Option Nat) (h : own.isSome = s.rebuffer) :
    SameLog s (s.reset orig own).1 ∧ (s.reset orig own).2 = .ok () := by
  unfold LState.reset
  split
  · rename_i hr
    cases own with
    | none => rw [hr] at h; cases h
    | some i => exact ⟨⟨rfl, rfl, rfl, rfl⟩, rfl⟩
  · exact ⟨SameLog.refl _, rfl⟩

theorem filter_self {α : Type} [DecidableEq α] (l : List α) (h : l.Nodup) (a : α) :
    (a ∈ l → l.filter (fun x => decide (x = a)) = [a]) ∧ (a ∉ l → l.filter (fun x => decide (x = a)) = []) := by
  refine ⟨fun ha => ?_, fun ha => ?_⟩
  · rw [filter_eq, h.count, if_pos ha]
    rfl
  · rw [filter_eq_nil_iff]
    rintro x hx hxa
    exact ha (of_decide_eq_true hxa ▸ hx)

theorem contents_log {s : LState} (h : s.Wired abs) (e : Bool) (r : Rec) (f : String) :
    (.file f ∈ s.handlers → (s.log e r).contents f = s.contents f ++ [r]) ∧
      (.file f ∉ s.handlers → (s.log e r).contents f = s.contents f) := by
  have hmap : ∀ hs : List Handler, ((hs.map fun x => (x, r)).filter fun x => decide (x.1 = Handler.file f)).map Prod.snd =
      (hs.filter fun x => decide (x = Handler.file f)).map fun _ => r := by
    intro hs
    rw [filter_map, map_map]
    rfl
  constructor
  · intro hf
    have hne : s.handlers.isEmpty = false := by
      cases hs : s.handlers with
      | nil => rw [hs] at hf; cases hf
      | cons a l => rfl
    have hc : s.configured = s := by simp [LState.configured, hne]
    rw [LState.log]
    simp only [hc]
    rw [if_pos (by simp [(h.files f hf).1])]
    simp only [LState.contents, filter_append, map_append, hmap, (filter_self _ h.nodup _).1 hf, map_cons, map_nil]
  · intro hf
    rw [LState.log]
    have hf' : Handler.file f ∉ s.configured.handlers := by
      unfold LState.configured
      split
      · simp
      · exact hf
    have hn : s.configured.handlers.Nodup := by
      unfold LState.configured
      split
      · simp
      · exact h.nodup
    have hl : s.configured.logged = s.logged := by unfold LState.configured; split <;> rfl
    split
    · simp only [LState.contents, filter_append, map_append, hmap, (filter_self _ hn _).2 hf', map_nil, append_nil, hl]
    · simp only [LState.contents, hl]

theorem log_wired {s : LState} (h : s.Wired abs) (e : Bool) (r : Rec) :
    (s.log e r).Wired abs ∧ (∀ f, .file f ∈ (s.log e r).handlers ↔ .file f ∈ s.handlers) ∧
      (s.log e r).rebuffer = s.rebuffer := by
  have hh : (s.log e r).handlers = s.configured.handlers ∧ (s.log e r).info = s.info ∧
      (s.log e r).rebuffer = s.rebuffer := by
    rw [LState.log]
    split <;> refine ⟨rfl, ?_, ?_⟩ <;> (unfold LState.configured; split <;> rfl)
  have hm : ∀ f, .file f ∈ s.configured.handlers ↔ .file f ∈ s.handlers := by
    intro f
    unfold LState.configured
    split
    · rename_i he
      rw [List.isEmpty_iff] at he
      simp [he]
    · exact Iff.rfl
  refine ⟨⟨?_, fun f hf => ?_⟩, fun f => by rw [hh.1]; exact hm f, hh.2.2⟩
  · rw [hh.1]
    unfold LState.configured
    split
    · simp
    · exact h.nodup
  · rw [hh.1] at hf
    rw [hh.2.1]
    exact h.files f ((hm f).1 hf)

theorem SameLog.wired {s t : LState} (h : SameLog s t) (hw : s.Wired abs) : t.Wired abs :=
  ⟨h.1 ▸ hw.nodup, fun f hf => by rw [h.2.1]; exact hw.files f (h.1 ▸ hf)⟩

theorem SameLog.contents {s t : LState} (h : SameLog s t) (f : String) : t.contents f = s.contents f := by
  simp only [LState.contents, h.2.2.1]

/-- The effect of a piece of a program on the log: `l` is appended to all files that are attached, and only to them. -/
structure Logs (l : List Rec) (s t : LState) : Prop where
  wired : t.Wired abs
  attached : ∀ f, .file f ∈ s.handlers → .file f ∈ t.handlers
  grows : ∀ f, .file f ∈ s.handlers → t.contents f = s.contents f ++ l
  rebuffer : t.rebuffer = s.rebuffer

theorem logs_same {s t : LState} (h : SameLog s t) (hw : s.Wired abs) : Logs abs [] s t :=
  ⟨h.wired abs hw, fun f hf => by rw [h.1]; exact hf, fun f _ => by rw [h.contents, append_nil], h.2.2.2⟩

theorem Logs.trans {l l' : List Rec} {s t u : LState} (h : Logs abs l s t) (h' : Logs abs l' t u) :
    Logs abs (l ++ l') s u :=
  ⟨h'.wired, fun f hf => h'.attached f (h.attached f hf), fun f hf => by
    rw [h'.grows f (h.attached f hf), h.grows f hf, append_assoc], h'.rebuffer.trans h.rebuffer⟩

theorem logs_log {s : LState} (hw : s.Wired abs) (e : Bool) (r : Rec) : Logs abs [r] s (s.log e r) :=
  ⟨(log_wired abs hw e r).1, fun f hf => ((log_wired abs hw e r).2.1 f).2 hf, fun f hf => (contents_log abs hw e r f).1 hf,
    (log_wired abs hw e r).2.2⟩

theorem logs_put {s : LState} (hw : s.Wired abs) (xs : List Out) : Logs abs [] s (s.put xs) :=
  logs_same abs ⟨rfl, rfl, rfl, rfl⟩ hw

variable (habs : ∀ f, abs (abs f) = abs f) (writable : String → Bool) (hopen : ∀ f, writable f = true)

include habs in
theorem any_writes {s : LState} (hw : s.Wired abs) (path : String) :
    s.handlers.any (Handler.writes abs path) = true ↔ .file (abs path) ∈ s.handlers := by
  rw [List.any_eq_true]
  constructor
  · rintro ⟨h, hm, hp⟩
    cases h with
    | stderr => cases hp
    | file p =>
      have hp : abs p = abs path := by simpa [Handler.writes] using hp
      rw [← hp, (hw.files p hm).2]
      exact hm
  · intro hm
    exact ⟨_, hm, by simp [Handler.writes, habs]⟩

include habs hopen in
theorem logs_add {s : LState} (hw : s.Wired abs) (path : String) :
    (s.addLogfile abs writable path).2 = .ok () ∧ Logs abs [] s (s.addLogfile abs writable path).1 ∧
      .file (abs path) ∈ (s.addLogfile abs writable path).1.handlers ∧
      (s.addLogfile abs writable path).1.contents (abs path) = s.contents (abs path) := by
  unfold LState.addLogfile
  by_cases ha : s.handlers.any (Handler.writes abs path) = true
  · rw [if_pos ha]
    have hm := (any_writes abs habs hw path).1 ha
    split
    · exact ⟨rfl, logs_put abs hw _, hm, rfl⟩
    · exact ⟨rfl, logs_same abs (SameLog.refl _) hw, hm, rfl⟩
  · rw [if_neg ha, if_pos (hopen _)]
    have hm : Handler.file (abs path) ∉ s.handlers := fun h => ha ((any_writes abs habs hw path).2 h)
    have hw' : LState.Wired abs { s with handlers := s.handlers ++ [.file (abs path)], info := true } := by
      refine ⟨?_, fun f hf => ⟨rfl, ?_⟩⟩
      · rw [nodup_append]
        refine ⟨hw.nodup, by simp, ?_⟩
        intro a ha b hb hab
        rw [mem_singleton] at hb
        subst hb
        exact hm (hab ▸ ha)
      · rcases mem_append.1 hf with h | h
        · exact (hw.files f h).2
        · have : f = abs path := by simpa using h
          rw [this, habs]
    have hl : Logs abs [] s { s with handlers := s.handlers ++ [.file (abs path)], info := true } :=
      ⟨hw', fun f hf => mem_append_left _ hf, fun f hf => by rw [append_nil]; rfl, rfl⟩
    by_cases hv : s.verbose = true
    · simp only [if_pos hv]
      exact ⟨trivial, hl.trans abs (logs_put abs hw' _), by simp [LState.put], rfl⟩
    · simp only [if_neg hv]
      exact ⟨trivial, hl, by simp, rfl⟩

include habs hopen in
theorem exec_logs (p : LProg) (hp : p.Steady) (s : LState) (hw : s.Wired abs) :
    (p.exec abs writable s).2 = p.records.2 ∧ Logs abs p.records.1 s (p.exec abs writable s).1 := by
  induction p generalizing s with
  | done => exact ⟨rfl, logs_same abs (SameLog.refl _) hw⟩
  | print t => exact ⟨rfl, logs_put abs hw _⟩
  | fail e => exact ⟨rfl, logs_same abs (SameLog.refl _) hw⟩
  | setVerbose b => exact ⟨rfl, logs_same abs ⟨rfl, rfl, rfl, rfl⟩ hw⟩
  | setRebuffer b => exact hp.elim
  | addLogfile path => exact ⟨(logs_add abs habs writable hopen hw path).1, (logs_add abs habs writable hopen hw path).2.1⟩
  | attempt p ih => exact ⟨rfl, (ih hp s hw).2⟩
  | seq p q ih ih' =>
    obtain ⟨h1, h2⟩ := ih hp.1 s hw
    rw [LProg.exec, LProg.records]
    rcases hx : p.exec abs writable s with ⟨t, x⟩
    rcases hr : p.records with ⟨l, y⟩
    rw [hx, hr] at h1 h2
    simp only at h1 h2
    subst h1
    cases x with
    | error e => exact ⟨rfl, h2⟩
    | ok u =>
      obtain ⟨h3, h4⟩ := ih' hp.2 t h2.wired
      exact ⟨h3, h2.trans abs h4⟩
  | block msg front back limited p ih =>
    obtain ⟨e1, e2⟩ := enter_sameLog s msg front
    rw [LProg.exec, LProg.records]
    generalize s.enter msg front = z at e1 e2
    obtain ⟨s1, own⟩ := z
    simp only at e1 e2 ⊢
    obtain ⟨h1, h2⟩ := ih hp s1 (e1.wired abs hw)
    rcases hx : p.exec abs writable s1 with ⟨t, x⟩
    rcases hr : p.records with ⟨l, y⟩
    rw [hx, hr] at h1 h2
    simp only at h1 h2
    subst h1
    have h3 : Logs abs l s t := by simpa using (logs_same abs e1 hw).trans abs h2
    have fin : ∀ (u : LState) (l' : List Rec), Logs abs l' s u →
        Logs abs l' s (u.reset s.cur own).1 ∧ (u.reset s.cur own).2 = .ok () := by
      intro u l' hu
      obtain ⟨r1, r2⟩ := reset_sameLog u s.cur own (by rw [e2, hu.rebuffer])
      exact ⟨by simpa using hu.trans abs (logs_same abs r1 hu.wired), r2⟩
    cases x with
    | ok u =>
      simp only [LState.exitDone]
      have h4 : Logs abs l s (if t.verbose && decide (msg ≠ "") then t.put [.done back] else t) := by
        split
        · simpa using h3.trans abs (logs_put abs h3.wired _)
        · exact h3
      generalize (if t.verbose && decide (msg ≠ "") then t.put [.done back] else t) = t' at h4
      obtain ⟨f1, f2⟩ := fin _ _ (h4.trans abs (logs_log abs h4.wired false (.done msg)))
      exact ⟨f2, f1⟩
    | error e =>
      simp only [LState.exitFailed]
      by_cases hc : (limited && e.timeout) = true
      · simp only [if_pos hc]
        have h4 : Logs abs l s (if msg = "" then t else t.put [.newline]) := by
          split
          · exact h3
          · simpa using h3.trans abs (logs_put abs h3.wired _)
        generalize (if msg = "" then t else t.put [.newline]) = t' at h4
        obtain ⟨f1, f2⟩ := fin _ _ (h4.trans abs (logs_log abs h4.wired false (.timedOut msg)))
        rw [f2]
        exact ⟨rfl, f1⟩
      · simp only [if_neg hc]
        have h4 := h3.trans abs (logs_put abs h3.wired [.exc e])
        have h5 := h4.trans abs (logs_log abs h4.wired false (.begun msg))
        have h6 := h5.trans abs (logs_log abs h5.wired true (.failed e))
        obtain ⟨f1, f2⟩ := fin _ _ h6
        rw [f2]
        refine ⟨rfl, ?_⟩
        simpa using f1

/-! ### Files that are not attached -/

theorem reset_log (s : LState) (orig : Nat) (own : Option Nat) : SameLog s (s.reset orig own).1 := by
  unfold LState.reset
  split
  · cases own <;> exact ⟨rfl, rfl, rfl, rfl⟩
  · exact SameLog.refl _

/-- The log of a file that is not attached does not change. -/
structure Spares (f : String) (s t : LState) : Prop where
  wired : t.Wired abs
  detached : .file f ∉ s.handlers → .file f ∉ t.handlers
  same : .file f ∉ s.handlers → t.contents f = s.contents f

theorem Spares.trans {f : String} {s t u : LState} (h : Spares abs f s t) (h' : Spares abs f t u) : Spares abs f s u :=
  ⟨h'.wired, fun hf => h'.detached (h.detached hf), fun hf => (h'.same (h.detached hf)).trans (h.same hf)⟩

theorem spares_same {f : String} {s t : LState} (h : t.handlers = s.handlers) (h1 : t.info = s.info)
    (h2 : t.logged = s.logged) (hw : s.Wired abs) : Spares abs f s t :=
  ⟨⟨h ▸ hw.nodup, fun f hf => by rw [h1]; exact hw.files f (h ▸ hf)⟩, fun hf => by rw [h]; exact hf, fun _ => by
    simp only [LState.contents, h2]⟩

theorem spares_log {f : String} {s : LState} (hw : s.Wired abs) (e : Bool) (r : Rec) : Spares abs f s (s.log e r) :=
  ⟨(log_wired abs hw e r).1, fun hf h => hf (((log_wired abs hw e r).2.1 f).1 h), fun hf => (contents_log abs hw e r f).2 hf⟩

include habs in
theorem add_wired {s : LState} (hw : s.Wired abs) (path : String) :
    (s.addLogfile abs writable path).1.Wired abs ∧
      (∀ f, abs path ≠ f → Spares abs f s (s.addLogfile abs writable path).1) := by
  unfold LState.addLogfile
  by_cases ha : s.handlers.any (Handler.writes abs path) = true
  · rw [if_pos ha]
    split
    · exact ⟨(logs_put abs hw _).wired, fun f _ => spares_same abs rfl rfl rfl hw⟩
    · exact ⟨hw, fun f _ => spares_same abs rfl rfl rfl hw⟩
  · rw [if_neg ha]
    by_cases ho : writable (abs path) = true
    · rw [if_pos ho]
      have hm : Handler.file (abs path) ∉ s.handlers := fun h => ha ((any_writes abs habs hw path).2 h)
      have hw' : LState.Wired abs { s with handlers := s.handlers ++ [.file (abs path)], info := true } := by
        refine ⟨?_, fun f hf => ⟨rfl, ?_⟩⟩
        · rw [nodup_append]
          refine ⟨hw.nodup, by simp, ?_⟩
          intro a ha b hb hab
          rw [mem_singleton] at hb
          subst hb
          exact hm (hab ▸ ha)
        · rcases mem_append.1 hf with h | h
          · exact (hw.files f h).2
          · have : f = abs path := by simpa using h
            rw [this, habs]
      have hs : ∀ f, abs path ≠ f →
          Spares abs f s { s with handlers := s.handlers ++ [.file (abs path)], info := true } := by
        intro f hf
        refine ⟨hw', fun h h' => ?_, fun _ => rfl⟩
        rcases mem_append.1 h' with h1 | h1
        · exact h h1
        · exact hf (by simpa using h1 : f = abs path).symm
      by_cases hv : s.verbose = true
      · simp only [if_pos hv]
        exact ⟨(logs_put abs hw' _).wired, fun f hf => (hs f hf).trans abs (spares_same abs rfl rfl rfl hw')⟩
      · simp only [if_neg hv]
        exact ⟨hw', hs⟩
    · rw [if_neg ho]
      exact ⟨hw, fun f _ => spares_same abs rfl rfl rfl hw⟩

include habs in
theorem exec_spares (p : LProg) (s : LState) (hw : s.Wired abs) :
    (p.exec abs writable s).1.Wired abs ∧ ∀ f, p.Avoids abs f → Spares abs f s (p.exec abs writable s).1 := by
  have base : ∀ t : LState, t.handlers = s.handlers → t.info = s.info → t.logged = s.logged →
      t.Wired abs ∧ ∀ f : String, Spares abs f s t := fun t h h1 h2 =>
    ⟨(spares_same abs (f := "") h h1 h2 hw).wired, fun f => spares_same abs h h1 h2 hw⟩
  induction p generalizing s with
  | done => exact ⟨(base s rfl rfl rfl).1, fun f _ => (base s rfl rfl rfl).2 f⟩
  | print t => exact ⟨(base (s.put [.text t]) rfl rfl rfl).1, fun f _ => (base (s.put [.text t]) rfl rfl rfl).2 f⟩
  | fail e => exact ⟨(base s rfl rfl rfl).1, fun f _ => (base s rfl rfl rfl).2 f⟩
  | setVerbose b =>
    exact ⟨(base { s with verbose := b } rfl rfl rfl).1, fun f _ => (base { s with verbose := b } rfl rfl rfl).2 f⟩
  | setRebuffer b =>
    exact ⟨(base { s with rebuffer := b } rfl rfl rfl).1, fun f _ => (base { s with rebuffer := b } rfl rfl rfl).2 f⟩
  | addLogfile path => exact add_wired abs habs writable hw path
  | attempt p ih => exact ih s hw base
  | seq p q ih ih' =>
    obtain ⟨h1, h2⟩ := ih s hw base
    rw [LProg.exec]
    rcases hx : p.exec abs writable s with ⟨t, x⟩
    rw [hx] at h1 h2
    simp only at h1 h2
    cases x with
    | error e => exact ⟨h1, fun f hf => h2 f hf.1⟩
    | ok u =>
      obtain ⟨h3, h4⟩ := ih' t h1 fun t' h h' h'' =>
        ⟨(spares_same abs (f := "") h h' h'' h1).wired, fun f => spares_same abs h h' h'' h1⟩
      exact ⟨h3, fun f hf => (h2 f hf.1).trans abs (h4 f hf.2)⟩
  | block msg front back limited p ih =>
    have e1 := (enter_sameLog s msg front).1
    rw [LProg.exec]
    generalize s.enter msg front = z at e1
    obtain ⟨s1, own⟩ := z
    simp only at e1 ⊢
    have hw1 := e1.wired abs hw
    obtain ⟨h1, h2⟩ := ih s1 hw1 fun t' h h' h'' =>
      ⟨(spares_same abs (f := "") h h' h'' hw1).wired, fun f => spares_same abs h h' h'' hw1⟩
    have h3 : ∀ f, p.Avoids abs f → Spares abs f s (p.exec abs writable s1).1 := fun f hf =>
      (spares_same abs e1.1 e1.2.1 e1.2.2.1 hw).trans abs (h2 f hf)
    rcases hx : p.exec abs writable s1 with ⟨t, x⟩
    rw [hx] at h1 h3
    simp only at h1 h3
    -- what follows spares every file
    have key : ∀ (b : Bool) (r : Rec) (u : LState), (∀ f, Spares abs f t u) → ∀ f, Spares abs f t (u.log b r) :=
      fun b r u hu f => (hu f).trans abs (spares_log abs (hu f).wired b r)
    have fin : ∀ u : LState, (∀ f, Spares abs f t u) → ∀ f, Spares abs f t (u.reset s.cur own).1 := fun u hu f =>
      (hu f).trans abs (spares_same abs (reset_log u s.cur own).1 (reset_log u s.cur own).2.1
        (reset_log u s.cur own).2.2.1 (hu f).wired)
    have st : ∀ f, Spares abs f t t := fun f => spares_same abs rfl rfl rfl h1
    have pt : ∀ xs f, Spares abs f t (t.put xs) := fun xs f => spares_same abs rfl rfl rfl h1
    have done : ∀ u : LState, (∀ f, Spares abs f t u) →
        u.Wired abs ∧ ∀ f, p.Avoids abs f → Spares abs f s u := fun u hu =>
      ⟨(hu "").wired, fun f hf => (h3 f hf).trans abs (hu f)⟩
    cases x with
    | ok u =>
      simp only [LState.exitDone]
      have h4 : ∀ f, Spares abs f t (if t.verbose && decide (msg ≠ "") then t.put [.done back] else t) := by
        intro f
        split
        · exact pt _ f
        · exact st f
      exact done _ (fin _ (key _ _ _ h4))
    | error e =>
      simp only [LState.exitFailed]
      by_cases hc : (limited && e.timeout) = true
      · simp only [if_pos hc]
        have h4 : ∀ f, Spares abs f t (if msg = "" then t else t.put [.newline]) := by
          intro f
          split
          · exact st f
          · exact pt _ f
        exact done _ (fin _ (key _ _ _ h4))
      · simp only [if_neg hc]
        exact done _ (fin _ (key _ _ _ (key _ _ _ (pt _))))

/-! ### Printing -/

/-- The effect of a piece of a program: what it prints and logs, and `verbose`, the handlers and the level afterwards. -/
structure Eff where
  xs : List Out
  lg : List (Handler × Rec)
  v : Bool
  hs : List Handler
  i : Bool

structure Does (e : Eff) (s t : LState) : Prop where
  verbose : t.verbose = e.v
  handlers : t.handlers = e.hs
  info : t.info = e.i
  rebuffer : t.rebuffer = s.rebuffer
  logged : t.logged = s.logged ++ e.lg
  cur : t.cur = s.cur
  bufs : ∃ extra, t.bufs = s.bufs.modify s.cur (· ++ e.xs) ++ extra

theorem Does.lt {e : Eff} {s t : LState} (h : Does e s t) (hl : s.cur < s.bufs.length) : t.cur < t.bufs.length := by
  obtain ⟨extra, hb⟩ := h.bufs
  rw [h.cur, hb, length_append, length_modify]
  omega

theorem modify_append_left {α : Type} (l l' : List α) (i : Nat) (h : i < l.length) (f : α → α) :
    (l ++ l').modify i f = l.modify i f ++ l' := by
  induction l generalizing i with
  | nil => cases h
  | cons a l ih =>
    cases i with
    | zero => rfl
    | succ i => simp [ih i (Nat.lt_of_succ_lt_succ h)]

theorem modify_twice {α : Type} (l : List (List α)) (i : Nat) (xs ys : List α) :
    (l.modify i (· ++ xs)).modify i (· ++ ys) = l.modify i (· ++ (xs ++ ys)) := by
  induction l generalizing i with
  | nil => simp
  | cons a l ih =>
    cases i with
    | zero => simp
    | succ i => simp [ih i]

theorem modify_nothing {α : Type} (l : List (List α)) (i : Nat) : l.modify i (· ++ []) = l := by
  induction l generalizing i with
  | nil => simp
  | cons a l ih =>
    cases i with
    | zero => simp
    | succ i => simpa using ih i

theorem Does.trans {e e' : Eff} {s t u : LState} (hl : s.cur < s.bufs.length) (h : Does e s t) (h' : Does e' t u) :
    Does ⟨e.xs ++ e'.xs, e.lg ++ e'.lg, e'.v, e'.hs, e'.i⟩ s u := by
  obtain ⟨x, hb⟩ := h.bufs
  obtain ⟨y, hb'⟩ := h'.bufs
  refine ⟨h'.verbose, h'.handlers, h'.info, h'.rebuffer.trans h.rebuffer, ?_, h'.cur.trans h.cur, x ++ y, ?_⟩
  · rw [h'.logged, h.logged, append_assoc]
  · rw [hb', hb, h.cur, modify_append_left _ _ _ (by rw [length_modify]; exact hl), modify_twice, append_assoc]

theorem does_put (s : LState) (xs : List Out) : Does ⟨xs, [], s.verbose, s.handlers, s.info⟩ s (s.put xs) :=
  ⟨rfl, rfl, rfl, rfl, (append_nil _).symm, rfl, [], (append_nil _).symm⟩

theorem does_same (s : LState) (b : Bool) : Does ⟨[], [], b, s.handlers, s.info⟩ s { s with verbose := b } :=
  ⟨rfl, rfl, rfl, rfl, (append_nil _).symm, rfl, [], by rw [modify_nothing, append_nil]⟩

/-- The handlers after a message. -/
def configured (hs : List Handler) : List Handler := if hs.isEmpty then [.stderr] else hs

theorem does_log (s : LState) (b : Bool) (r : Rec) :
    Does ⟨[], if s.info || b then (configured s.handlers).map fun h => (h, r) else [], s.verbose, configured s.handlers,
      s.info⟩ s (s.log b r) := by
  have hc : s.configured = { s with handlers := configured s.handlers } := by
    unfold LState.configured configured
    split <;> rfl
  rw [LState.log]
  rw [hc]
  by_cases hi : (s.info || b) = true
  · simp only [if_pos hi]
    exact ⟨rfl, rfl, rfl, rfl, rfl, rfl, [], by rw [modify_nothing, append_nil]⟩
  · simp only [if_neg hi]
    exact ⟨rfl, rfl, rfl, rfl, (append_nil _).symm, rfl, [], by rw [modify_nothing, append_nil]⟩

def Eff.join (e e' : Eff) : Eff := ⟨e.xs ++ e'.xs, e.lg ++ e'.lg, e'.v, e'.hs, e'.i⟩

def Eff.say (e : Eff) (xs : List Out) : Eff := e.join ⟨xs, [], e.v, e.hs, e.i⟩

def Eff.note (e : Eff) (b : Bool) (r : Rec) : Eff :=
  e.join ⟨[], if e.i || b then (configured e.hs).map fun h => (h, r) else [], e.v, configured e.hs, e.i⟩

theorem Does.say {e : Eff} {s t : LState} (hl : s.cur < s.bufs.length) (h : Does e s t) (xs : List Out) :
    Does (e.say xs) s (t.put xs) := by
  have c := does_put t xs
  rw [h.verbose, h.handlers, h.info] at c
  exact h.trans hl c

theorem Does.note {e : Eff} {s t : LState} (hl : s.cur < s.bufs.length) (h : Does e s t) (b : Bool) (r : Rec) :
    Does (e.note b r) s (t.log b r) := by
  have c := does_log t b r
  rw [h.verbose, h.handlers, h.info] at c
  exact h.trans hl c

/-- `sys.stdout` replaced by a new buffer, if `rebuffer`. -/
def LState.opened (s : LState) : LState × Option Nat :=
  if s.rebuffer then ({ s with bufs := s.bufs ++ [[]], cur := s.bufs.length }, some s.bufs.length) else (s, none)

theorem enter_opened (s : LState) (msg : String) (front : Bool) :
    s.enter msg front = (s.opened.1.put (if s.verbose then [.start msg front] else []), s.opened.2) := by
  have hp : ∀ t : LState, t.put [] = t := fun t => by rw [LState.put, modify_nothing]
  unfold LState.enter LState.opened
  by_cases hr : s.rebuffer = true
  · simp only [if_pos hr]
    split <;> simp [*]
  · simp only [if_neg hr]
    split <;> simp [*]

theorem opened_rest (s : LState) : s.opened.1.verbose = s.verbose ∧ s.opened.1.handlers = s.handlers ∧
    s.opened.1.info = s.info ∧ (s.cur < s.bufs.length → s.opened.1.cur < s.opened.1.bufs.length) := by
  unfold LState.opened
  split
  · exact ⟨rfl, rfl, rfl, fun _ => by simp⟩
  · exact ⟨rfl, rfl, rfl, fun h => h⟩

/-- What is printed to the buffer of a block ends up where the block prints. -/
theorem bracket {e : Eff} {s t : LState} (hl : s.cur < s.bufs.length) (h : Does e s.opened.1 t) :
    (t.reset s.cur s.opened.2).2 = .ok () ∧ Does e s (t.reset s.cur s.opened.2).1 := by
  unfold LState.opened at h ⊢
  by_cases hr : s.rebuffer = true
  · rw [if_pos hr] at h ⊢
    have hrt : t.rebuffer = true := h.rebuffer.trans hr
    unfold LState.reset
    rw [if_pos hrt]
    refine ⟨rfl, h.verbose, h.handlers, h.info, h.rebuffer, h.logged, rfl, ?_⟩
    obtain ⟨x, hb⟩ := h.bufs
    have hb' : t.bufs = s.bufs ++ ([e.xs] ++ x) := by
      rw [hb]
      simp only
      rw [modify_eq_take_drop]
      simp
    refine ⟨[e.xs] ++ x, ?_⟩
    simp only [LState.put]
    have hg : t.bufs.getD s.bufs.length [] = e.xs := by
      rw [hb', getD_eq_getElem?_getD, getElem?_append_right (Nat.le_refl _)]
      simp
    rw [hg, hb', modify_append_left _ _ _ hl]
  · rw [if_neg hr] at h ⊢
    have hrt : t.rebuffer = false := h.rebuffer.trans (by simpa using hr)
    unfold LState.reset
    rw [if_neg (by rw [hrt]; simp)]
    exact ⟨rfl, h⟩

theorem exec_does (p : LProg) (hp : p.Steady) (v : Bool) (hs : List Handler) (i : Bool) :
    ∃ (e : Eff) (o : Except LExc Unit), ∀ s : LState, s.verbose = v → s.handlers = hs → s.info = i →
      s.cur < s.bufs.length → (p.exec abs writable s).2 = o ∧ Does e s (p.exec abs writable s).1 := by
  induction p generalizing v hs i with
  | done => exact ⟨⟨[], [], v, hs, i⟩, .ok (), by rintro s rfl rfl rfl _; exact ⟨rfl, does_same s _⟩⟩
  | print t => exact ⟨⟨[.text t], [], v, hs, i⟩, .ok (), by rintro s rfl rfl rfl _; exact ⟨rfl, does_put s _⟩⟩
  | fail e => exact ⟨⟨[], [], v, hs, i⟩, .error e, by rintro s rfl rfl rfl _; exact ⟨rfl, does_same s _⟩⟩
  | setVerbose b => exact ⟨⟨[], [], b, hs, i⟩, .ok (), by rintro s rfl rfl rfl _; exact ⟨rfl, does_same s b⟩⟩
  | setRebuffer b => exact hp.elim
  | attempt p ih =>
    obtain ⟨e, o, h⟩ := ih hp v hs i
    exact ⟨e, .ok (), fun s h1 h2 h3 h4 => ⟨rfl, (h s h1 h2 h3 h4).2⟩⟩
  | addLogfile path =>
    by_cases ha : hs.any (Handler.writes abs path) = true
    · refine ⟨⟨if v then [.already (abs path)] else [], [], v, hs, i⟩, .ok (), ?_⟩
      rintro s rfl rfl rfl _
      rw [LProg.exec, LState.addLogfile, if_pos ha]
      split
      · exact ⟨rfl, does_put s _⟩
      · exact ⟨rfl, does_same s _⟩
    · by_cases ho : writable (abs path) = true
      · refine ⟨⟨if v then [.logging (abs path)] else [], [], v, hs ++ [.file (abs path)], true⟩, .ok (), ?_⟩
        rintro s rfl rfl rfl _
        rw [LProg.exec, LState.addLogfile, if_neg ha, if_pos ho]
        by_cases hv : s.verbose = true
        · simp only [if_pos hv]
          exact ⟨trivial, rfl, rfl, rfl, rfl, (append_nil _).symm, rfl, [], (append_nil _).symm⟩
        · simp only [if_neg hv]
          exact ⟨trivial, rfl, rfl, rfl, rfl, (append_nil _).symm, rfl, [], by rw [modify_nothing, append_nil]⟩
      · refine ⟨⟨[], [], v, hs, i⟩, .error ⟨false, "cannot open the file"⟩, ?_⟩
        rintro s rfl rfl rfl _
        rw [LProg.exec, LState.addLogfile, if_neg ha, if_neg ho]
        exact ⟨rfl, does_same s _⟩
  | seq p q ih ih' =>
    obtain ⟨e, o, h⟩ := ih hp.1 v hs i
    cases o with
    | error x =>
      refine ⟨e, .error x, fun s h1 h2 h3 h4 => ?_⟩
      obtain ⟨a, b⟩ := h s h1 h2 h3 h4
      rw [LProg.exec]
      rcases hx : p.exec abs writable s with ⟨t, y⟩
      rw [hx] at a b
      simp only at a b
      subst a
      exact ⟨rfl, b⟩
    | ok u =>
      obtain ⟨e', o', h'⟩ := ih' hp.2 e.v e.hs e.i
      refine ⟨e.join e', o', fun s h1 h2 h3 h4 => ?_⟩
      · obtain ⟨a, b⟩ := h s h1 h2 h3 h4
        rw [LProg.exec]
        rcases hx : p.exec abs writable s with ⟨t, y⟩
        rw [hx] at a b
        simp only at a b
        subst a
        obtain ⟨c, d⟩ := h' t b.verbose b.handlers b.info (b.lt h4)
        exact ⟨c, b.trans h4 d⟩
  | block msg front back limited p ih =>
    obtain ⟨e, o, h⟩ := ih hp v hs i
    obtain ⟨pre, hpre⟩ : ∃ pre : List Out, pre = if v then [.start msg front] else [] := ⟨_, rfl⟩
    -- the body, in the buffer of the block
    have body : ∀ s : LState, s.verbose = v → s.handlers = hs → s.info = i → s.cur < s.bufs.length →
        (p.exec abs writable (s.enter msg front).1).2 = o ∧ (s.enter msg front).2 = s.opened.2 ∧
          s.opened.1.cur < s.opened.1.bufs.length ∧
          Does ⟨pre ++ e.xs, e.lg, e.v, e.hs, e.i⟩ s.opened.1 (p.exec abs writable (s.enter msg front).1).1 := by
      rintro s rfl rfl rfl hl
      obtain ⟨o1, o2, o3, o4⟩ := opened_rest s
      rw [enter_opened]
      simp only
      rw [← hpre]
      have d := does_put s.opened.1 pre
      obtain ⟨a, b⟩ := h (s.opened.1.put pre) o1 o2 o3 (d.lt (o4 hl))
      exact ⟨a, trivial, o4 hl, d.trans (o4 hl) b⟩
    cases o with
    | ok u =>
      obtain ⟨b1, hb1⟩ : ∃ b1 : List Out, b1 = if e.v && decide (msg ≠ "") then [.done back] else [] := ⟨_, rfl⟩
      refine ⟨((Eff.mk (pre ++ e.xs) e.lg e.v e.hs e.i).say b1).note false (.done msg), .ok (), fun s h1 h2 h3 h4 => ?_⟩
      · obtain ⟨a, w, hl, b⟩ := body s h1 h2 h3 h4
        rw [LProg.exec]
        rcases hx : p.exec abs writable (s.enter msg front).1 with ⟨t, y⟩
        rw [hx] at a b
        simp only at a b
        subst a
        simp only [LState.exitDone, w]
        have ht : (if t.verbose && decide (msg ≠ "") then t.put [.done back] else t) = t.put b1 := by
          rw [hb1, b.verbose]
          split
          · rfl
          · rw [LState.put, modify_nothing]
        rw [ht]
        exact bracket h4 ((b.say hl b1).note hl false (.done msg))
    | error x =>
      by_cases hc : (limited && x.timeout) = true
      · obtain ⟨b1, hb1⟩ : ∃ b1 : List Out, b1 = if msg = "" then [] else [.newline] := ⟨_, rfl⟩
        refine ⟨((Eff.mk (pre ++ e.xs) e.lg e.v e.hs e.i).say b1).note false (.timedOut msg), .error ⟨true, "TIMED OUT"⟩,
          fun s h1 h2 h3 h4 => ?_⟩
        · obtain ⟨a, w, hl, b⟩ := body s h1 h2 h3 h4
          rw [LProg.exec]
          rcases hx : p.exec abs writable (s.enter msg front).1 with ⟨t, y⟩
          rw [hx] at a b
          simp only at a b
          subst a
          simp only [LState.exitFailed, w, if_pos hc]
          have ht : (if msg = "" then t else t.put [.newline]) = t.put b1 := by
            rw [hb1]
            split
            · rw [LState.put, modify_nothing]
            · rfl
          rw [ht]
          obtain ⟨f1, f2⟩ := bracket h4 ((b.say hl b1).note hl false (.timedOut msg))
          rw [f1]
          exact ⟨rfl, f2⟩
      · refine ⟨(((Eff.mk (pre ++ e.xs) e.lg e.v e.hs e.i).say [.exc x]).note false (.begun msg)).note true (.failed x),
          .error x, fun s h1 h2 h3 h4 => ?_⟩
        · obtain ⟨a, w, hl, b⟩ := body s h1 h2 h3 h4
          rw [LProg.exec]
          rcases hx : p.exec abs writable (s.enter msg front).1 with ⟨t, y⟩
          rw [hx] at a b
          simp only at a b
          subst a
          simp only [LState.exitFailed, w, if_neg hc]
          obtain ⟨f1, f2⟩ := bracket h4 (((b.say hl [.exc x]).note hl false (.begun msg)).note hl true (.failed x))
          rw [f1]
          exact ⟨rfl, f2⟩

/-! ### Property theorems -/

include habs hopen in
/-- **C123** (log files). After `add_logfile(path)` a program appends exactly the messages of its blocks to the file, in the
order in which the blocks end, whatever has been added before, however often, and whatever is printed. -/
theorem C123_log (p : LProg) (hp : p.Steady) (path : String) (s : LState) (hw : s.Wired abs) :
    ((LProg.seq (.addLogfile path) p).exec abs writable s).2 = p.records.2 ∧
      ((LProg.seq (.addLogfile path) p).exec abs writable s).1.contents (abs path) = s.contents (abs path) ++ p.records.1 := by
  obtain ⟨h1, h2, h3, h4⟩ := logs_add abs habs writable hopen hw path
  rw [LProg.exec]
  have e : (LProg.addLogfile path).exec abs writable s = s.addLogfile abs writable path := rfl
  rw [e]
  rcases hx : s.addLogfile abs writable path with ⟨t, x⟩
  rw [hx] at h1 h2 h3 h4
  simp only at h1 h2 h3 h4
  subst h1
  obtain ⟨h5, h6⟩ := exec_logs abs habs writable hopen p hp t h2.wired
  exact ⟨h5, by rw [← h4]; exact h6.grows _ h3⟩

include habs in
/-- **C123** (attached once). Whatever has happened, each file has at most one handler, so that no message is written twice;
a file that a program does not add stays as it is. -/
theorem C123_attached_once (p : LProg) (s : LState) (hw : s.Wired abs) :
    (p.exec abs writable s).1.handlers.Nodup ∧
      (∀ f, p.Avoids abs f → .file f ∉ s.handlers → (p.exec abs writable s).1.contents f = s.contents f) :=
  ⟨(exec_spares abs habs writable p s hw).1.nodup, fun f hf h => ((exec_spares abs habs writable p s hw).2 f hf).same h⟩

/-- **C123** (buffering). If `rebuffer` is not changed by the program itself, it does not matter for what finally is on the
screen, in the log and for exceptions. -/
theorem C123_buffering (p : LProg) (hp : p.Steady) (s : LState) (hs : s.cur = 0) (hb : s.bufs ≠ []) :
    (p.exec abs writable { s with rebuffer := true }).2 = (p.exec abs writable { s with rebuffer := false }).2 ∧
      (p.exec abs writable { s with rebuffer := true }).1.bufs.head? =
        (p.exec abs writable { s with rebuffer := false }).1.bufs.head? ∧
      (p.exec abs writable { s with rebuffer := true }).1.logged =
        (p.exec abs writable { s with rebuffer := false }).1.logged := by
  obtain ⟨e, o, h⟩ := exec_does abs writable p hp s.verbose s.handlers s.info
  have hl : s.cur < s.bufs.length := by rw [hs]; exact length_pos_iff.2 hb
  obtain ⟨a1, d1⟩ := h { s with rebuffer := true } rfl rfl rfl hl
  obtain ⟨a0, d0⟩ := h { s with rebuffer := false } rfl rfl rfl hl
  obtain ⟨x1, b1⟩ := d1.bufs
  obtain ⟨x0, b0⟩ := d0.bufs
  refine ⟨a1.trans a0.symm, ?_, d1.logged.trans d0.logged.symm⟩
  rw [b1, b0]
  simp only
  cases hc : s.bufs with
  | nil => exact absurd hc hb
  | cons a l => simp [hs]

/-- Blocks only: nothing is printed otherwise, the switches are not changed, nothing fails. -/
def LProg.Calm : LProg → Prop
  | .done => True
  | .seq p q => p.Calm ∧ q.Calm
  | .block _ _ _ _ p => p.Calm
  | .attempt p => p.Calm
  | .addLogfile _ => True
  | _ => False

theorem calm_records (p : LProg) (hp : p.Calm) : p.records.2 = .ok () ∧ p.Steady := by
  induction p with
  | done => exact ⟨rfl, trivial⟩
  | addLogfile path => exact ⟨rfl, trivial⟩
  | attempt p ih => exact ⟨rfl, (ih hp).2⟩
  | seq p q ih ih' =>
    refine ⟨?_, (ih hp.1).2, (ih' hp.2).2⟩
    rw [LProg.records]
    obtain ⟨h, _⟩ := ih hp.1
    rcases hr : p.records with ⟨l, y⟩
    rw [hr] at h
    simp only at h
    subst h
    exact (ih' hp.2).1
  | block msg front back limited p ih =>
    refine ⟨?_, (ih hp).2⟩
    rw [LProg.records]
    obtain ⟨h, _⟩ := ih hp
    rcases hr : p.records with ⟨l, y⟩
    rw [hr] at h
    simp only at h
    subst h
    rfl
  | print t => exact hp.elim
  | fail e => exact hp.elim
  | setVerbose b => exact hp.elim
  | setRebuffer b => exact hp.elim

theorem put_nil (s : LState) : s.put [] = s := by rw [LState.put, modify_nothing]

include habs hopen in
theorem calm_does (p : LProg) (hp : p.Calm) (s : LState) (hw : s.Wired abs) (hv : s.verbose = false)
    (hl : s.cur < s.bufs.length) :
    ∃ e : Eff, e.xs = [] ∧ e.v = false ∧ Does e s (p.exec abs writable s).1 := by
  induction p generalizing s with
  | done => exact ⟨⟨[], [], s.verbose, s.handlers, s.info⟩, rfl, hv, does_same s _⟩
  | addLogfile path =>
    rw [LProg.exec, LState.addLogfile]
    split
    · exact ⟨⟨[], [], s.verbose, s.handlers, s.info⟩, rfl, hv, by
        rw [hv, if_neg (by simp), ← hv]
        exact does_same s s.verbose⟩
    · rw [if_pos (hopen _)]
      refine ⟨⟨[], [], s.verbose, s.handlers ++ [.file (abs path)], true⟩, rfl, hv, ?_⟩
      simp only [hv]
      exact ⟨rfl, rfl, rfl, rfl, (append_nil _).symm, rfl, [], by rw [modify_nothing, append_nil]; rfl⟩
  | attempt p ih => exact ih hp s hw hv hl
  | seq p q ih ih' =>
    obtain ⟨e, e1, e2, d⟩ := ih hp.1 s hw hv hl
    obtain ⟨h1, h2⟩ := exec_logs abs habs writable hopen p (calm_records p hp.1).2 s hw
    rw [(calm_records p hp.1).1] at h1
    rw [LProg.exec]
    rcases hx : p.exec abs writable s with ⟨t, x⟩
    rw [hx] at h1 h2 d
    simp only at h1 h2 d
    subst h1
    obtain ⟨e', e1', e2', d'⟩ := ih' hp.2 t h2.wired (d.verbose.trans e2) (d.lt hl)
    exact ⟨e.join e', by simp only [Eff.join, e1, e1', append_nil], e2', d.trans hl d'⟩
  | block msg front back limited p ih =>
    obtain ⟨o1, o2, o3, o4⟩ := opened_rest s
    have hen : s.enter msg front = (s.opened.1, s.opened.2) := by
      rw [enter_opened, hv, if_neg (by simp), put_nil]
    have hsl : SameLog s s.opened.1 := by
      have := (enter_sameLog s msg front).1
      rwa [hen] at this
    have hw1 := hsl.wired abs hw
    obtain ⟨e, e1, e2, d⟩ := ih hp s.opened.1 hw1 (o1.trans hv) (o4 hl)
    obtain ⟨h1, h2⟩ := exec_logs abs habs writable hopen p (calm_records p hp).2 s.opened.1 hw1
    rw [(calm_records p hp).1] at h1
    rw [LProg.exec]
    simp only [hen]
    rcases hx : p.exec abs writable s.opened.1 with ⟨t, x⟩
    rw [hx] at h1 h2 d
    simp only at h1 h2 d
    subst h1
    simp only [LState.exitDone]
    have hvt : t.verbose = false := d.verbose.trans e2
    have ht : (if t.verbose && decide (msg ≠ "") then t.put [.done back] else t) = t := by simp [hvt]
    rw [ht]
    exact ⟨e.note false (.done msg), by simp only [Eff.note, Eff.join, e1, append_nil], e2,
      (bracket hl (d.note (o4 hl) false (.done msg))).2⟩
  | print t => exact hp.elim
  | fail e => exact hp.elim
  | setVerbose b => exact hp.elim
  | setRebuffer b => exact hp.elim

include habs hopen in
/-- **C123** (`verbose = False`). Blocks print nothing as long as nothing is raised, but everything is logged. -/
theorem C123_quiet_partial (p : LProg) (hp : p.Calm) (s : LState) (hw : s.Wired abs) (hv : s.verbose = false)
    (hs : s.cur = 0) (hb : s.bufs ≠ []) :
    (p.exec abs writable s).1.bufs.head? = s.bufs.head? ∧
      (∀ f, .file f ∈ s.handlers → (p.exec abs writable s).1.contents f = s.contents f ++ p.records.1) := by
  have hl : s.cur < s.bufs.length := by rw [hs]; exact length_pos_iff.2 hb
  obtain ⟨e, e1, _, d⟩ := calm_does abs habs writable hopen p hp s hw hv hl
  refine ⟨?_, (exec_logs abs habs writable hopen p (calm_records p hp).2 s hw).2.grows⟩
  obtain ⟨x, hx⟩ := d.bufs
  rw [hx, e1, modify_nothing]
  cases hc : s.bufs with
  | nil => exact absurd hc hb
  | cons a l => rfl

/-- **C123** (negation: silence). Exceptions are printed although `verbose = False`. -/
theorem C123_quiet_false (msg : String) (front back : Bool) (x : LExc) (s : LState) (hv : s.verbose = false)
    (hr : s.rebuffer = false) (hx : x.timeout = false) :
    ((LProg.block msg front back false (.fail x)).exec abs writable s).1.bufs = (s.put [.exc x]).bufs := by
  have h : ∀ (t : LState) (b : Bool) (r : Rec), (t.log b r).bufs = t.bufs ∧ (t.log b r).rebuffer = t.rebuffer := by
    intro t b r
    rw [LState.log]
    have : t.configured.bufs = t.bufs ∧ t.configured.rebuffer = t.rebuffer := by
      unfold LState.configured
      split <;> exact ⟨rfl, rfl⟩
    split
    · exact this
    · exact this
  simp only [LProg.exec, LState.enter, hr, hv, LState.exitFailed, Bool.false_and, Bool.false_eq_true, if_false]
  unfold LState.reset
  rw [if_neg (by rw [(h _ _ _).2, (h _ _ _).2]; simp [LState.put, hr])]
  rw [(h _ _ _).1, (h _ _ _).1]

/-- The state when the package has just been imported. -/
def LState.fresh : LState := ⟨true, false, false, [], [], [[]], 0⟩

theorem fresh_wired : LState.fresh.Wired abs := ⟨by simp [LState.fresh], by intro f hf; cases hf⟩

/-- **C123** (negation: the screen). A block that has ended before the first `add_logfile` makes `logging` write to the
standard error stream as well, so that later messages appear there, also with `verbose = False`. -/
theorem C123_stderr (hopen' : ∀ f, writable f = true) (a b path : String) :
    (Handler.stderr, Rec.done b) ∈
      ((LProg.seq (.block a false true false .done) (.seq (.addLogfile path) (.seq (.setVerbose false)
        (.block b false true false .done)))).exec abs writable LState.fresh).1.logged := by
  by_cases ha : a = ""
  · simp [LProg.exec, LState.enter, LState.fresh, LState.exitDone, LState.put, LState.log, LState.configured, LState.reset,
      LState.addLogfile, Handler.writes, hopen', ha]
  · simp [LProg.exec, LState.enter, LState.fresh, LState.exitDone, LState.put, LState.log, LState.configured, LState.reset,
      LState.addLogfile, Handler.writes, hopen', ha]

/-- **C123** (the screen, what holds). If there is a handler, and none for the standard error stream, nothing is ever
written there. -/
theorem C123_stderr_partial (p : LProg) (s : LState) (h1 : s.handlers ≠ []) (h2 : .stderr ∉ s.handlers)
    (h3 : ∀ r, (Handler.stderr, r) ∉ s.logged) (r : Rec) : (Handler.stderr, r) ∉ (p.exec abs writable s).1.logged := by
  -- `I` is kept by every step
  let I : LState → Prop := fun t => t.handlers ≠ [] ∧ .stderr ∉ t.handlers ∧ ∀ r, (Handler.stderr, r) ∉ t.logged
  have hlog : ∀ (t : LState) (b : Bool) (r : Rec), I t → I (t.log b r) := by
    rintro t b r ⟨i1, i2, i3⟩
    have hc : t.configured = t := by
      unfold LState.configured
      rw [if_neg (by rwa [List.isEmpty_iff])]
    rw [LState.log, hc]
    by_cases hb : (t.info || b) = true
    · simp only [if_pos hb]
      refine ⟨i1, i2, fun r' hr' => ?_⟩
      rcases mem_append.1 hr' with h | h
      · exact i3 r' h
      · obtain ⟨h', hm, e⟩ := mem_map.1 h
        exact i2 ((Prod.mk.inj e).1 ▸ hm)
    · simp only [if_neg hb]
      exact ⟨i1, i2, i3⟩
  have hreset : ∀ (t : LState) (c : Nat) (o : Option Nat), I t → I (t.reset c o).1 := by
    intro t c o ht
    obtain ⟨e1, _, e3, _⟩ := reset_log t c o
    exact ⟨e1 ▸ ht.1, e1 ▸ ht.2.1, fun r => e3 ▸ ht.2.2 r⟩
  have main : ∀ (p : LProg) (t : LState), I t → I (p.exec abs writable t).1 := by
    intro p
    induction p with
    | done => exact fun t ht => ht
    | print x => exact fun t ht => ht
    | fail e => exact fun t ht => ht
    | setVerbose b => exact fun t ht => ht
    | setRebuffer b => exact fun t ht => ht
    | attempt p ih => exact fun t ht => ih t ht
    | addLogfile path =>
      rintro t ⟨i1, i2, i3⟩
      rw [LProg.exec, LState.addLogfile]
      by_cases ha : t.handlers.any (Handler.writes abs path) = true
      · rw [if_pos ha]
        split <;> exact ⟨i1, i2, i3⟩
      · rw [if_neg ha]
        by_cases ho : writable (abs path) = true
        · rw [if_pos ho]
          by_cases hv : t.verbose = true
          · simp only [if_pos hv]
            exact ⟨by simp [LState.put], by simpa [LState.put] using i2, i3⟩
          · simp only [if_neg hv]
            exact ⟨by simp, by simpa using i2, i3⟩
        · rw [if_neg ho]
          exact ⟨i1, i2, i3⟩
    | seq p q ih ih' =>
      intro t ht
      have h := ih t ht
      rw [LProg.exec]
      rcases hx : p.exec abs writable t with ⟨u, x⟩
      rw [hx] at h
      cases x with
      | error e => exact h
      | ok y => exact ih' u h
    | block msg front back limited p ih =>
      intro t ht
      have e1 := (enter_sameLog t msg front).1
      rw [LProg.exec]
      have h := ih (t.enter msg front).1 ⟨by rw [e1.1]; exact ht.1, by rw [e1.1]; exact ht.2.1, fun r => by
        rw [e1.2.2.1]; exact ht.2.2 r⟩
      rcases hx : p.exec abs writable (t.enter msg front).1 with ⟨u, x⟩
      rw [hx] at h
      cases x with
      | ok y =>
        simp only [LState.exitDone]
        refine hreset _ _ _ (hlog _ _ _ ?_)
        split <;> exact h
      | error e =>
        simp only [LState.exitFailed]
        by_cases hc : (limited && e.timeout) = true
        · simp only [if_pos hc]
          refine hreset _ _ _ (hlog _ _ _ ?_)
          split <;> exact h
        · simp only [if_neg hc]
          exact hreset _ _ _ (hlog _ _ _ (hlog _ _ _ h))
  exact (main p s ⟨h1, h2, h3⟩).2.2 r

/-- **C123** (negation: switching `rebuffer` on). A block in which `rebuffer` is switched on ends with an `AttributeError`,
although nothing fails. -/
theorem C123_switch_on (msg : String) (front back : Bool) (s : LState) (hr : s.rebuffer = false) :
    ((LProg.block msg front back false (.setRebuffer true)).exec abs writable s).2 =
      .error ⟨false, "'NoneType' object has no attribute 'getvalue'"⟩ := by
  have h : ∀ (t : LState) (b : Bool) (r : Rec), (t.log b r).rebuffer = t.rebuffer := by
    intro t b r
    rw [LState.log]
    have : t.configured.rebuffer = t.rebuffer := by
      unfold LState.configured
      split <;> rfl
    split <;> exact this
  simp only [LProg.exec, LState.enter, hr, Bool.false_eq_true, if_false, LState.exitDone]
  unfold LState.reset
  rw [if_pos]
  rw [h]
  split <;> split <;> rfl

/-- **C123** (negation: switching `rebuffer` off). After a block in which `rebuffer` is switched off, what is printed never
reaches the screen. -/
theorem C123_switch_off (msg t : String) (front back : Bool) (s : LState) (hs : s.cur = 0) (hb : s.bufs ≠ [])
    (hr : s.rebuffer = true) :
    ((LProg.seq (.block msg front back false (.setRebuffer false)) (.print t)).exec abs writable s).2 = .ok () ∧
      ((LProg.seq (.block msg front back false (.setRebuffer false)) (.print t)).exec abs writable s).1.bufs.head? =
        s.bufs.head? := by
  have h : ∀ (t : LState) (b : Bool) (r : Rec), (t.log b r).bufs = t.bufs ∧ (t.log b r).rebuffer = t.rebuffer ∧
      (t.log b r).cur = t.cur := by
    intro t b r
    rw [LState.log]
    have : t.configured.bufs = t.bufs ∧ t.configured.rebuffer = t.rebuffer ∧ t.configured.cur = t.cur := by
      unfold LState.configured
      split <;> exact ⟨rfl, rfl, rfl⟩
    split <;> exact this
  have hres : ∀ (u : LState) (c : Nat) (o : Option Nat), u.rebuffer = false → u.reset c o = (u, .ok ()) := by
    intro u c o hu
    unfold LState.reset
    rw [if_neg (by rw [hu]; simp)]
  obtain ⟨a, l, hc⟩ : ∃ a l, s.bufs = a :: l := by
    cases hc : s.bufs with
    | nil => exact absurd hc hb
    | cons a l => exact ⟨a, l, rfl⟩
  have hE : (LProg.block msg front back false (.setRebuffer false)).exec abs writable s =
      ((if s.verbose && decide (msg ≠ "") then
        ({ (s.enter msg front).1 with rebuffer := false } : LState).put [.done back]
        else { (s.enter msg front).1 with rebuffer := false }).log false (.done msg), .ok ()) := by
    have hv : (s.enter msg front).1.verbose = s.verbose := by
      rw [enter_opened]
      exact (opened_rest s).1
    simp only [LProg.exec, LState.exitDone, hv]
    rw [hres]
    rw [(h _ _ _).2.1]
    split <;> rfl
  rw [LProg.exec, hE]
  refine ⟨rfl, ?_⟩
  simp only [LProg.exec, LState.put, (h _ _ _).1, (h _ _ _).2.2]
  unfold LState.enter
  rw [if_pos hr]
  by_cases hv : s.verbose = true
  · by_cases hm : msg = ""
    · simp [hv, hm, hc, LState.put]
    · simp [hv, hm, hc, LState.put]
  · simp [hv, hc]

end

/-! ### Non-vacuity -/

/-- A block in a block, the inner one with an exception that is caught. -/
def logEx : LProg :=
  .seq (.block "outer" false true false (.seq (.attempt (.block "inner" false true false (.fail ⟨false, "boom"⟩)))
    (.seq (.addLogfile "a.log") (.print "text")))) (.block "last" false true true .done)

example : logEx.Steady := by simp [logEx, LProg.Steady]

example : logEx.records = ([.begun "inner", .failed ⟨false, "boom"⟩, .done "outer", .done "last"], .ok ()) := by decide +kernel

example : ((LProg.seq (.addLogfile "a.log") logEx).exec id (fun _ => true) LState.fresh).1.contents "a.log" =
    [.begun "inner", .failed ⟨false, "boom"⟩, .done "outer", .done "last"] := by decide +kernel

example : LState.fresh.Wired id := fresh_wired id

example : (logEx.exec id (fun _ => true) { LState.fresh with rebuffer := true }).1.bufs.length = 4 ∧
    (logEx.exec id (fun _ => true) LState.fresh).1.bufs.length = 1 := by decide +kernel

example : (LProg.seq (.addLogfile "a.log") (.block "quiet" false true false (.block "inner" false true false .done))).Calm := by
  simp [LProg.Calm]

end Opinf
