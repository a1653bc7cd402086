import Verif.Model.Bayes
import Verif.Lemmas.RegSelect

/-!
# Lemmas on the selection of the regularization with random draws
-/

namespace Opinf

open List

variable {K S G C : Type}

/-! ### Grid searches on functions with side effects -/

section search

variable {σ : Type}

/-- The function has the same outcome in related states and leads to related states. -/
def Bisim (Rel : σ → σ → Prop) (F : Point K → σ → σ × Except Err (Val K)) : Prop :=
  ∀ p s t, Rel s t → (F p s).2 = (F p t).2 ∧ Rel (F p s).1 (F p t).1

theorem optim_run_bisim {Rel : σ → σ → Prop} {F : Point K → σ → σ × Except Err (Val K)} (hF : Bisim Rel F) :
    ∀ (o : Optim K) (s t : σ), Rel s t → (o.run F s).2 = (o.run F t).2 ∧ Rel (o.run F s).1 (o.run F t).1 := by
  intro o
  induction o with
  | done r => intro s t h; exact ⟨rfl, h⟩
  | fail e => intro s t h; exact ⟨rfl, h⟩
  | ask x next ih =>
    intro s t h
    obtain ⟨a1, a2⟩ := hF x s t h
    simp only [Optim.run]
    rcases h1 : F x s with ⟨s', u⟩
    rcases h2 : F x t with ⟨t', v⟩
    rw [h1, h2] at a1 a2
    simp only at a1 a2
    subst a1
    cases u with
    | error e => exact ⟨rfl, a2⟩
    | ok v => exact ih v s' t' a2

theorem gridLoop_bisim [LinearOrder K] {Rel : σ → σ → Prop} {F : Point K → σ → σ × Except Err (Val K)}
    (hF : Bisim Rel F) : ∀ (cs : List (Point K)) (i : Nat) (b : Val K × Option Nat) (s t : σ), Rel s t →
    (gridLoop F i cs b s).2 = (gridLoop F i cs b t).2 ∧ Rel (gridLoop F i cs b s).1 (gridLoop F i cs b t).1 := by
  intro cs
  induction cs with
  | nil => intro i b s t h; exact ⟨rfl, h⟩
  | cons c cs ih =>
    intro i b s t h
    obtain ⟨a1, a2⟩ := hF c s t h
    simp only [gridLoop]
    rcases h1 : F c s with ⟨s', u⟩
    rcases h2 : F c t with ⟨t', v⟩
    rw [h1, h2] at a1 a2
    simp only at a1 a2
    subst a1
    cases u with
    | error e => exact ⟨rfl, a2⟩
    | ok v => exact ih _ _ s' t' a2

theorem bisim_logFunc [LinearOrder K] {Rel : σ → σ → Prop} {F : Point K → σ → σ × Except Err (Val K)}
    (hF : Bisim Rel F) (pow10 : Point K → Point K) (big : K) : Bisim Rel (logFunc pow10 big F) := by
  intro x s t h
  obtain ⟨a1, a2⟩ := hF (pow10 x) s t h
  simp only [logFunc]
  rcases h1 : F (pow10 x) s with ⟨s', u⟩
  rcases h2 : F (pow10 x) t with ⟨t', v⟩
  rw [h1, h2] at a1 a2
  simp only at a1 a2
  subst a1
  cases u with
  | error e => exact ⟨rfl, a2⟩
  | ok v => exact ⟨rfl, a2⟩

theorem gridsearch_bisim [Field K] [LinearOrder K] {Rel : σ → σ → Prop} {F : Point K → σ → σ × Except Err (Val K)}
    (hF : Bisim Rel F) (pow10 : Point K → Point K) (big : K) (optimiser : Start K → Optim K) (c : Cands K) (only : Bool)
    (s t : σ) (h : Rel s t) :
    (gridsearch pow10 big optimiser F c only s).2 = (gridsearch pow10 big optimiser F c only t).2 ∧
    Rel (gridsearch pow10 big optimiser F c only s).1 (gridsearch pow10 big optimiser F c only t).1 := by
  simp only [gridsearch]
  cases c.process with
  | error e => exact ⟨rfl, h⟩
  | ok g =>
    obtain ⟨a1, a2⟩ := gridLoop_bisim hF g.points 0 (.inf, none) s t h
    simp only
    rcases h1 : gridLoop F 0 g.points (.inf, none) s with ⟨s', u⟩
    rcases h2 : gridLoop F 0 g.points (.inf, none) t with ⟨t', v⟩
    rw [h1, h2] at a1 a2
    simp only at a1 a2
    subst a1
    cases u with
    | error e => exact ⟨rfl, a2⟩
    | ok b =>
      obtain ⟨v, i⟩ := b
      cases i with
      | none => exact ⟨rfl, a2⟩
      | some i =>
        simp only
        cases only with
        | true => exact ⟨rfl, a2⟩
        | false =>
          simp only [Bool.false_eq_true, if_false]
          obtain ⟨c1, c2⟩ := optim_run_bisim (bisim_logFunc hF pow10 big) (optimiser (g.start i)) s' t' a2
          rcases h3 : (optimiser (g.start i)).run (logFunc pow10 big F) s' with ⟨s'', u⟩
          rcases h4 : (optimiser (g.start i)).run (logFunc pow10 big F) t' with ⟨t'', v⟩
          rw [h3, h4] at c1 c2
          simp only at c1 c2
          subst c1
          cases u with
          | error e => exact ⟨rfl, c2⟩
          | ok r => exact ⟨rfl, c2⟩

/-- The point has been evaluated in some state with the invariant, and the value was below infinity. -/
def Visited [LinearOrder K] (Inv : σ → Prop) (F : Point K → σ → σ × Except Err (Val K)) (p : Point K) (v : Val K) : Prop :=
  ∃ s, Inv s ∧ (F p s).2 = .ok v

theorem optim_run_visited [LinearOrder K] {Inv : σ → Prop} {F : Point K → σ → σ × Except Err (Val K)}
    (hI : ∀ p s, Inv s → Inv (F p s).1) : ∀ (o : Optim K) (asked : List (Point K × Val K)) (s s' : σ)
    (r : OptRes K), Inv s → o.Honest asked → (∀ q ∈ asked, Visited Inv F q.1 q.2) → o.run F s = (s', .ok r) →
    Inv s' ∧ (r.success = true → Visited Inv F r.x r.fun_) := by
  intro o
  induction o with
  | done r =>
    intro asked s s' r' hs ho ha h
    simp only [Optim.run, Prod.mk.injEq, Except.ok.injEq] at h
    obtain ⟨rfl, rfl⟩ := h
    exact ⟨hs, fun hsuc => ha _ (ho hsuc)⟩
  | fail e => intro asked s s' r' hs ho ha h; simp [Optim.run] at h
  | ask x next ih =>
    intro asked s s' r hs ho ha h
    simp only [Optim.run] at h
    have hi := hI x s hs
    rcases h1 : F x s with ⟨s1, u⟩
    rw [h1] at h hi
    cases u with
    | error e => simp at h
    | ok v =>
      refine ih v ((x, v) :: asked) s1 s' r hi (ho v) ?_ h
      intro q hq
      rcases mem_cons.1 hq with rfl | hq
      · exact ⟨s, hs, by rw [h1]⟩
      · exact ha q hq

theorem gridLoop_visited [LinearOrder K] {Inv : σ → Prop} {F : Point K → σ → σ × Except Err (Val K)}
    (hI : ∀ p s, Inv s → Inv (F p s).1) (pts : List (Point K)) : ∀ (cs pre : List (Point K)) (b : Val K × Option Nat)
    (s s' : σ) (v : Val K) (i : Option Nat), Inv s → pre ++ cs = pts →
    (∀ j, b.2 = some j → ∃ p, pts[j]? = some p ∧ Visited Inv F p b.1 ∧ b.1.lt .inf = true) → (b.2 = none → b.1 = .inf) →
    gridLoop F pre.length cs b s = (s', .ok (v, i)) →
    Inv s' ∧ ∀ j, i = some j → ∃ p, pts[j]? = some p ∧ Visited Inv F p v ∧ v.lt .inf = true := by
  intro cs
  induction cs with
  | nil =>
    intro pre b s s' v i hs hp hb hn h
    simp only [gridLoop, Prod.mk.injEq, Except.ok.injEq] at h
    obtain ⟨rfl, rfl⟩ := h
    exact ⟨hs, hb⟩
  | cons c cs ih =>
    intro pre b s s' v i hs hp hb hn h
    simp only [gridLoop] at h
    have hi := hI c s hs
    rcases h1 : F c s with ⟨s1, u⟩
    rw [h1] at h hi
    cases u with
    | error e => simp at h
    | ok u =>
      simp only at h
      have hlen : pre.length + 1 = (pre ++ [c]).length := by simp
      rw [hlen] at h
      refine ih (pre ++ [c]) _ s1 s' v i hi (by simpa using hp) ?_ ?_ h
      · by_cases hu : u.lt b.1 = true
        · rw [if_pos hu]
          intro j hj
          simp only [Option.some.injEq] at hj
          subst hj
          refine ⟨c, by rw [← hp]; simp, ⟨s, hs, by rw [h1]⟩, ?_⟩
          simp only
          cases hb2 : b.2 with
          | none => rw [← hn hb2]; exact hu
          | some j =>
            obtain ⟨p, -, -, hlt⟩ := hb j hb2
            exact Val.lt_trans hu hlt
        · rw [if_neg hu]; exact hb
      · by_cases hu : u.lt b.1 = true
        · rw [if_pos hu]; simp
        · rw [if_neg hu]; exact hn

theorem gridLoop_all [LinearOrder K] {Inv : σ → Prop} {F : Point K → σ → σ × Except Err (Val K)}
    (hI : ∀ p s, Inv s → Inv (F p s).1) : ∀ (cs : List (Point K)) (i : Nat) (b : Val K × Option Nat)
    (s s' : σ) (x : Val K × Option Nat), Inv s → gridLoop F i cs b s = (s', .ok x) → ∀ c ∈ cs, ∃ v, Visited Inv F c v := by
  intro cs
  induction cs with
  | nil => intro i b s s' x hs h c hc; simp at hc
  | cons c cs ih =>
    intro i b s s' x hs h
    simp only [gridLoop] at h
    have hi := hI c s hs
    rcases h1 : F c s with ⟨s1, u⟩
    rw [h1] at h hi
    cases u with
    | error e => simp at h
    | ok u =>
      intro d hd
      rcases mem_cons.1 hd with rfl | hd
      · exact ⟨u, s, hs, by rw [h1]⟩
      · exact ih _ _ s1 s' x hi h d hd

/-- If a grid search returns something, every candidate has been evaluated without an exception. -/
theorem gridsearch_all [Field K] [LinearOrder K] {Inv : σ → Prop} {F : Point K → σ → σ × Except Err (Val K)}
    (hI : ∀ p s, Inv s → Inv (F p s).1) (pow10 : Point K → Point K) (big : K) (optimiser : Start K → Optim K)
    (c : Cands K) (only : Bool) (s s' : σ) (w : Point K) (hs : Inv s)
    (h : gridsearch pow10 big optimiser F c only s = (s', .ok w)) (g : Grid K) (hg : c.process = .ok g) :
    ∀ p ∈ g.points, ∃ v, Visited Inv F p v := by
  simp only [gridsearch, hg] at h
  rcases hl : gridLoop F 0 g.points (.inf, none) s with ⟨s1, r⟩
  rw [hl] at h
  cases r with
  | error e => simp at h
  | ok b => exact gridLoop_all hI g.points 0 (.inf, none) s s1 b hs hl

/-- Whatever a grid search returns has been evaluated, in a state with the invariant, with a value below infinity. -/
theorem gridsearch_visited [Field K] [LinearOrder K] {Inv : σ → Prop} {F : Point K → σ → σ × Except Err (Val K)}
    (hI : ∀ p s, Inv s → Inv (F p s).1) (pow10 : Point K → Point K) (big : K) (optimiser : Start K → Optim K)
    (ho : ∀ st, (optimiser st).Honest []) (c : Cands K) (only : Bool) (s s' : σ) (w : Point K) (hs : Inv s)
    (h : gridsearch pow10 big optimiser F c only s = (s', .ok w)) :
    Inv s' ∧ ∃ v, Visited Inv F w v ∧ v.lt .inf = true := by
  simp only [gridsearch] at h
  cases hc : c.process with
  | error e => rw [hc] at h; simp at h
  | ok g =>
    rw [hc] at h
    simp only at h
    rcases hl : gridLoop F 0 g.points (.inf, none) s with ⟨s1, r⟩
    rw [hl] at h
    cases r with
    | error e => simp at h
    | ok b =>
      obtain ⟨v, i⟩ := b
      obtain ⟨hs1, hg⟩ := gridLoop_visited hI g.points g.points [] (.inf, none) s s1 v i hs (by simp) (by simp)
        (by simp) hl
      cases i with
      | none => simp at h
      | some i =>
        obtain ⟨p, hp, hvis, hlt⟩ := hg i rfl
        have hget : g.points.getD i (.num 0) = p := by simp [hp]
        simp only [hget] at h
        cases only with
        | true =>
          simp only [if_true, Prod.mk.injEq, Except.ok.injEq] at h
          obtain ⟨rfl, rfl⟩ := h
          exact ⟨hs1, v, hvis, hlt⟩
        | false =>
          simp only [Bool.false_eq_true, if_false] at h
          have hI' : ∀ p s, Inv s → Inv (logFunc pow10 big F p s).1 := by
            intro p s hs
            have := hI (pow10 p) s hs
            simp only [logFunc]
            rcases h1 : F (pow10 p) s with ⟨s1, u⟩
            rw [h1] at this
            cases u <;> exact this
          rcases hr : (optimiser (g.start i)).run (logFunc pow10 big F) s1 with ⟨s2, r⟩
          rw [hr] at h
          cases r with
          | error e => simp at h
          | ok r =>
            obtain ⟨hs2, hv2⟩ := optim_run_visited hI' (optimiser (g.start i)) [] s1 s2 r hs1 (ho _) (by simp) hr
            simp only [Prod.mk.injEq, Except.ok.injEq] at h
            obtain ⟨rfl, rfl⟩ := h
            refine ⟨hs2, ?_⟩
            unfold chooseWinner
            split
            · exact ⟨v, hvis, hlt⟩
            · rename_i hcond
              simp only [Bool.or_eq_true, Bool.not_eq_true', Bool.and_eq_false_iff, decide_eq_false_iff_not, not_or,
                not_not, Bool.not_eq_false, ne_eq, Decidable.not_not] at hcond
              obtain ⟨⟨hsuc, hbig⟩, -⟩ := hcond
              obtain ⟨s3, hs3, hv3⟩ := hv2 hsuc
              simp only [logFunc] at hv3
              rcases h1 : F (pow10 r.x) s3 with ⟨s4, u⟩
              rw [h1] at hv3
              cases u with
              | error e => simp at hv3
              | ok u =>
                simp only [Except.ok.injEq] at hv3
                refine ⟨u, ⟨s3, hs3, by rw [h1]⟩, ?_⟩
                unfold Val.clip at hv3
                by_cases hu : u.lt (.num big) = true
                · exact Val.lt_trans hu rfl
                · rw [if_neg hu] at hv3
                  exact absurd hv3.symm hbig

end search

/-! ### The steps of a Bayesian model -/

theorem extractDraw_alike [AddMonoid K] {cfg : S → C} {M N : Model K S} (h : M.Alike cfg N) (hi : M.intrusive = false)
    (out : RvsOut K) : (M.extractDraw out).2 = (N.extractDraw out).2 ∧
    ((M.extractDraw out).2 = .ok () → (M.extractDraw out).1.slots = (N.extractDraw out).1.slots) ∧
    (M.extractDraw out).1.Alike cfg (N.extractDraw out).1 ∧
    (M.extractDraw out).1.Alike cfg M ∧ (M.extractDraw out).1.solver = M.solver := by
  cases out with
  | vector v => exact ⟨rfl, by simp [Model.extractDraw], h, Model.Alike.refl _ _, rfl⟩
  | list xs => exact ⟨rfl, by simp [Model.extractDraw], h, Model.Alike.refl _ _, rfl⟩
  | matrix A =>
    have hr : N.r.getD 0 = M.r.getD 0 := by rw [h.r]
    have hm : N.m.getD 0 = M.m.getD 0 := by rw [h.m]
    obtain ⟨e1, e2⟩ := extractLoop_alike (M.r.getD 0) (M.m.getD 0) A M.slots N.slots 0 h.slots
    have a1 : (M.extract A).1.Alike cfg M := ⟨extractLoop_clear _ _ _ _ _, by simp [Model.extract, hi], rfl, rfl, rfl, rfl, rfl⟩
    have a2 : (N.extract A).1.Alike cfg N :=
      ⟨extractLoop_clear _ _ _ _ _, by simp [Model.extract, ← h.intrusive, hi], rfl, rfl, rfl, rfl, rfl⟩
    refine ⟨?_, ?_, (a1.trans h).trans a2.symm, a1, rfl⟩
    · simp only [Model.extractDraw, Model.extract, hr, hm]; exact e1
    · simp only [Model.extractDraw, Model.extract, hr, hm]; exact e2

/-- Two Bayesian models that differ at most in the operators, the regularization and the posterior. -/
structure BRom.Near (cfg : S → C) (A B : BRom K S G) : Prop where
  gen : A.gen = B.gen
  model : A.model.Alike cfg B.model
  learns : A.model.intrusive = false

/-- ... at most in the operators. -/
structure BRom.Close (cfg : S → C) (A B : BRom K S G) : Prop where
  near : A.Near cfg B
  posterior : A.posterior = B.posterior
  solver : A.model.solver = B.model.solver

theorem BRom.Close.refl (cfg : S → C) (A : BRom K S G) (h : A.model.intrusive = false) : A.Close cfg A :=
  ⟨⟨rfl, Model.Alike.refl _ _, h⟩, rfl, rfl⟩

theorem draw_close [AddMonoid K] (L : NormalLib K G) {cfg : S → C} {A B : BRom K S G} (h : A.Close cfg B) :
    (A.drawOperators L).2 = (B.drawOperators L).2 ∧ (A.drawOperators L).1.Close cfg (B.drawOperators L).1 ∧
    ((A.drawOperators L).2 = .ok () → (A.drawOperators L).1 = (B.drawOperators L).1) := by
  obtain ⟨⟨hg, hm, hi⟩, hp, hs⟩ := h
  unfold BRom.drawOperators
  rw [← hp, ← hg]
  cases hP : A.posterior with
  | none => exact ⟨rfl, ⟨⟨hg, hm, hi⟩, hp, hs⟩, by simp⟩
  | some P =>
    simp only
    rcases hd : P.rvs L A.gen with ⟨g, x⟩
    cases x with
    | error e => exact ⟨rfl, ⟨⟨rfl, hm, hi⟩, rfl, hs⟩, by simp⟩
    | ok out =>
      obtain ⟨e1, e2, e3, e4, e5⟩ := extractDraw_alike hm hi out
      obtain ⟨-, -, -, -, e5'⟩ := extractDraw_alike hm.symm (hm.intrusive ▸ hi) out
      have hs' : (A.model.extractDraw out).1.solver = (B.model.extractDraw out).1.solver := by rw [e5, e5', hs]
      refine ⟨e1, ⟨⟨rfl, e3, e4.intrusive.trans hi⟩, rfl, hs'⟩, fun hok => ?_⟩
      have : (A.model.extractDraw out).1 = (B.model.extractDraw out).1 := by
        have q1 := e2 hok
        have q2 := e3.inputs; have q3 := e3.r; have q4 := e3.m; have q5 := e3.intrusive
        rcases hx : (A.model.extractDraw out).1 with ⟨a, b, c, d, e, f⟩
        rcases hy : (B.model.extractDraw out).1 with ⟨a', b', c', d', e', f'⟩
        rw [hx, hy] at q1 q2 q3 q4 q5 hs'
        simp only at q1 q2 q3 q4 q5 hs'
        subst q1 q2 q3 q4 q5 hs'
        rfl
      simp only [this, ← hp, hP]

theorem testDraws_close [AddMonoid K] (L : NormalLib K G) {cfg : S → C} (c : RegCase K (Model K S)) (n : Nat) {A B : BRom K S G}
    (h : A.Close cfg B) : (A.testDraws L c n).2 = (B.testDraws L c n).2 ∧
      (A.testDraws L c n).1.Close cfg (B.testDraws L c n).1 := by
  induction n generalizing A B with
  | zero => exact ⟨rfl, h⟩
  | succ n ih =>
    obtain ⟨d1, d2, d3⟩ := draw_close L h
    simp only [BRom.testDraws]
    rcases hA : A.drawOperators L with ⟨A', x⟩
    rcases hB : B.drawOperators L with ⟨B', y⟩
    rw [hA, hB] at d1 d2 d3
    simp only at d1 d2 d3
    subst d1
    cases x with
    | error e => exact ⟨rfl, d2⟩
    | ok _ =>
      have := d3 rfl
      subst this
      refine ⟨rfl, ?_⟩
      simp only
      cases c.predict A'.model with
      | error e => exact d2
      | ok Q =>
        simp only
        split
        · exact d2
        · exact (ih d2).2

theorem testLoop_close [AddMonoid K] (L : NormalLib K G) {cfg : S → C} (n : Nat) (cs : List (RegCase K (Model K S)))
    {A B : BRom K S G} (h : A.Close cfg B) : (A.testLoop L n cs).2 = (B.testLoop L n cs).2 ∧
      (A.testLoop L n cs).1.Close cfg (B.testLoop L n cs).1 := by
  induction cs generalizing A B with
  | nil => exact ⟨rfl, h⟩
  | cons c cs ih =>
    obtain ⟨d1, d2⟩ := testDraws_close L c n h
    simp only [BRom.testLoop]
    rcases hA : A.testDraws L c n with ⟨A', x⟩
    rcases hB : B.testDraws L c n with ⟨B', y⟩
    rw [hA, hB] at d1 d2
    simp only at d1 d2
    subst d1
    rcases x with e | b
    · exact ⟨rfl, d2⟩
    · cases b with
      | false => exact ⟨rfl, d2⟩
      | true => exact ih d2

theorem trainDraws_close [AddMonoid K] (L : NormalLib K G) {cfg : S → C} (c : BayesCase K S) (n : Nat)
    (draws : List (Traj K)) {A B : BRom K S G} (h : A.Close cfg B) :
    (A.trainDraws L c n draws).2 = (B.trainDraws L c n draws).2 ∧
      (A.trainDraws L c n draws).1.Close cfg (B.trainDraws L c n draws).1 := by
  induction n generalizing A B draws with
  | zero => exact ⟨rfl, h⟩
  | succ n ih =>
    obtain ⟨d1, d2, d3⟩ := draw_close L h
    simp only [BRom.trainDraws]
    rcases hA : A.drawOperators L with ⟨A', x⟩
    rcases hB : B.drawOperators L with ⟨B', y⟩
    rw [hA, hB] at d1 d2 d3
    simp only at d1 d2 d3
    subst d1
    cases x with
    | error e => exact ⟨rfl, d2⟩
    | ok _ =>
      have := d3 rfl
      subst this
      refine ⟨rfl, ?_⟩
      simp only
      cases c.predict A'.model with
      | error e => exact d2
      | ok Q =>
        simp only
        rcases c.unstable Q with e | b
        · exact d2
        · cases b with
          | true => exact d2
          | false => exact (ih (draws ++ [Q]) d2).2

theorem trainLoop_close [Field K] (L : NormalLib K G) {cfg : S → C} (n : Nat) (cs : List (BayesCase K S)) (err : Val K)
    {A B : BRom K S G} (h : A.Close cfg B) : (A.trainLoop L n err cs).2 = (B.trainLoop L n err cs).2 ∧
      (A.trainLoop L n err cs).1.Close cfg (B.trainLoop L n err cs).1 := by
  induction cs generalizing A B err with
  | nil => exact ⟨rfl, h⟩
  | cons c cs ih =>
    obtain ⟨d1, d2⟩ := trainDraws_close L c n [] h
    simp only [BRom.trainLoop]
    rcases hA : A.trainDraws L c n [] with ⟨A', x⟩
    rcases hB : B.trainDraws L c n [] with ⟨B', y⟩
    rw [hA, hB] at d1 d2
    simp only at d1 d2
    subst d1
    rcases x with e | b
    · exact ⟨rfl, d2⟩
    · cases b with
      | none => exact ⟨rfl, d2⟩
      | some draws =>
        simp only
        cases c.error draws with
        | error e => exact ⟨rfl, d2⟩
        | ok e => exact ih _ d2

theorem evaluate_close [Field K] (L : NormalLib K G) {cfg : S → C} (n : Nat) (tests : List (RegCase K (Model K S)))
    (trains : List (BayesCase K S)) {A B : BRom K S G} (h : A.Close cfg B) :
    (A.evaluate L n tests trains).2 = (B.evaluate L n tests trains).2 ∧
      (A.evaluate L n tests trains).1.Close cfg (B.evaluate L n tests trains).1 := by
  obtain ⟨d1, d2⟩ := testLoop_close L n tests h
  simp only [BRom.evaluate]
  rcases hA : A.testLoop L n tests with ⟨A', x⟩
  rcases hB : B.testLoop L n tests with ⟨B', y⟩
  rw [hA, hB] at d1 d2
  simp only at d1 d2
  subst d1
  rcases x with e | b
  · exact ⟨rfl, d2⟩
  · cases b with
    | false => exact ⟨rfl, d2⟩
    | true =>
      simp only
      obtain ⟨d1, d2⟩ := trainLoop_close L n trains (.num 0) d2
      rcases hA : A'.trainLoop L n (.num 0) trains with ⟨A', x⟩
      rcases hB : B'.trainLoop L n (.num 0) trains with ⟨B', y⟩
      rw [hA, hB] at d1 d2
      simp only at d1 d2
      subst d1
      rcases x with e | b
      · exact ⟨rfl, d2⟩
      · cases b with
        | none => exact ⟨rfl, d2⟩
        | some v => exact ⟨rfl, d2⟩

/-- What `update_model` does, in terms of the solver. -/
theorem update_spec (L : NormalLib K G) (B : BayesI K S) {setReg : S → Point K → S × Except Err Unit} {cfg : S → C}
    (hO : Overwrites setReg cfg) (R : BRom K S G) (p : Point K) (s : S) (hs : R.model.solver = some s) :
    (R.update L B setReg p).1.gen = R.gen ∧ (R.update L B setReg p).1.model = { R.model with solver := some (setReg s p).1 } ∧
    (R.update L B setReg p).2 = (match (setReg s p).2 with
      | .error e => .error e
      | .ok () => match solverPosterior L B (setReg s p).1 with
        | .ok _ => .ok ()
        | .error .linalg => .ok ()
        | .error e => .error e) ∧
    ((R.update L B setReg p).2 = .ok () → (R.update L B setReg p).1.posterior =
      (solverPosterior L B (setReg s p).1).toOption) := by
  unfold BRom.update
  rw [hs]
  rcases hr : setReg s p with ⟨s', x⟩
  simp only
  cases x with
  | error e => simp [hr]
  | ok _ =>
    simp only [hr, BRom.initPosterior]
    cases hp : solverPosterior L B s' with
    | ok P => simp [Except.toOption, hp]
    | error e => cases e <;> simp [Except.toOption, hp]

theorem update_near (L : NormalLib K G) (B : BayesI K S) {setReg : S → Point K → S × Except Err Unit} {cfg : S → C}
    (hO : Overwrites setReg cfg) {X Y : BRom K S G} (h : X.Near cfg Y) (p : Point K) :
    (X.update L B setReg p).2 = (Y.update L B setReg p).2 ∧ (X.update L B setReg p).1.Near cfg (Y.update L B setReg p).1 ∧
    ((X.update L B setReg p).2 = .ok () → (X.update L B setReg p).1.Close cfg (Y.update L B setReg p).1) := by
  obtain ⟨hg, hm, hi⟩ := h
  have hsol := hm.solver
  cases hX : X.model.solver with
  | none =>
    cases hY : Y.model.solver with
    | some t => simp [hX, hY] at hsol
    | none =>
      simp only [BRom.update, hX, hY]
      exact ⟨trivial, ⟨hg, hm, hi⟩, by simp⟩
  | some s =>
    cases hY : Y.model.solver with
    | none => simp [hX, hY] at hsol
    | some t =>
      have hst : cfg s = cfg t := by simpa [hX, hY] using hsol
      obtain ⟨o1, o2⟩ := hO.same s t p hst
      obtain ⟨x1, x2, x3, x4⟩ := update_spec L B hO X p s hX
      obtain ⟨y1, y2, y3, y4⟩ := update_spec L B hO Y p t hY
      have hal : (X.update L B setReg p).1.model.Alike cfg (Y.update L B setReg p).1.model := by
        rw [x2, y2]
        refine ⟨hm.slots, by simp [hi], hm.inputs, hm.r, hm.m, hm.intrusive, ?_⟩
        simp [hO.keep, hst]
      have hint : (X.update L B setReg p).1.model.intrusive = false := by rw [x2]; exact hi
      have hnear : (X.update L B setReg p).1.Near cfg (Y.update L B setReg p).1 :=
        ⟨by rw [x1, y1, hg], hal, hint⟩
      have hout : (X.update L B setReg p).2 = (Y.update L B setReg p).2 := by
        rw [x3, y3, ← o1]
        cases hr : (setReg s p).2 with
        | error e => rfl
        | ok _ => rw [o2 hr]
      refine ⟨hout, hnear, fun hok => ?_⟩
      have hreg : (setReg s p).2 = .ok () := by
        rw [x3] at hok
        cases hr : (setReg s p).2 with
        | error e => rw [hr] at hok; simp at hok
        | ok _ => rfl
      have hsame := o2 hreg
      refine ⟨hnear, ?_, ?_⟩
      · rw [x4 hok, y4 (hout ▸ hok), hsame]
      · rw [x2, y2, hsame]

theorem trainingError_bisim [Field K] (L : NormalLib K G) (B : BayesI K S)
    {setReg : S → Point K → S × Except Err Unit} {cfg : S → C} (hO : Overwrites setReg cfg) (n : Nat)
    (tests : List (RegCase K (Model K S))) (trains : List (BayesCase K S)) :
    Bisim (BRom.Near (G := G) cfg) (BRom.trainingError L B setReg n tests trains) := by
  intro p X Y h
  obtain ⟨u1, u2, u3⟩ := update_near L B hO h p
  simp only [BRom.trainingError]
  rcases hX : X.update L B setReg p with ⟨X', x⟩
  rcases hY : Y.update L B setReg p with ⟨Y', y⟩
  rw [hX, hY] at u1 u2 u3
  simp only at u1 u2 u3
  subst u1
  cases x with
  | error e => exact ⟨rfl, u2⟩
  | ok _ =>
    have hc := u3 rfl
    simp only [← hc.posterior]
    cases X'.posterior with
    | none => exact ⟨rfl, u2⟩
    | some P =>
      obtain ⟨e1, e2⟩ := evaluate_close L n tests trains hc
      exact ⟨e1, e2.near⟩

end Opinf
