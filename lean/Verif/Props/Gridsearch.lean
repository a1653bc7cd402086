import Verif.Model.Gridsearch
import Mathlib.Tactic.Linarith
import Mathlib.Tactic.NormNum

/-!
# C48: grid search never returns something worse than a candidate
-/

namespace Opinf

open List

variable {K : Type}

/-! ### Specification -/

/-- `v` is a genuine value (a number or `-inf`) that is not above `w`; every genuine value is below `inf`, and
NaN is no competitor. -/
def Val.AtMost [LE K] : Val K → Val K → Prop
  | .ninf, _ => True
  | .num x, .num y => x ≤ y
  | .num _, .inf => True
  | .num _, .nan => True
  | _, _ => False

/-- `v` is a number or `-inf`. -/
def Val.Genuine : Val K → Prop
  | .num _ => True
  | .ninf => True
  | _ => False

/-- The points a user lists as candidates; an array with a single entry is a number. -/
def Cands.points : Cands K → List (Point K)
  | .num x => [.num x]
  | .nums xs => xs.map .num
  | .vecs vs => vs.map fun v => match v with
    | [x] => .num x
    | v => .vec v

/-- The value (or exception) of the function at a point does not depend on the state, as long as the state
satisfies `Inv`, which evaluations maintain. -/
def Tame {σ : Type} (Inv : σ → Prop) (F : Point K → σ → σ × Except Err (Val K))
    (f : Point K → Except Err (Val K)) : Prop :=
  ∀ c s, Inv s → Inv (F c s).1 ∧ (F c s).2 = f c

/-- An optimiser that reports success returns a point it has evaluated, with the value it was given there.
`asked` are the questions and answers so far. -/
def Optim.Honest : List (Point K × Val K) → Optim K → Prop
  | asked, .done r => r.success = true → (r.x, r.fun_) ∈ asked
  | _, .fail _ => True
  | asked, .ask x next => ∀ v, (next v).Honest ((x, v) :: asked)

/-! ### Lemmas -/

section order

variable [LinearOrder K]

theorem Val.lt_trans {a b c : Val K} (h : a.lt b = true) (h' : b.lt c = true) : a.lt c = true := by
  cases a <;> cases b <;> cases c <;> simp_all [Val.lt]
  exact _root_.lt_trans h h'

theorem Val.lt_of_lt_of_not {a b c : Val K} (h : a.lt b = true) (h' : ¬ c.lt b = true) :
    c = .nan ∨ a.lt c = true := by
  cases a <;> cases b <;> cases c <;> simp_all [Val.lt]
  exact lt_of_lt_of_le h h'

theorem Val.genuine_of_lt {a b : Val K} (h : a.lt b = true) : a.Genuine := by
  cases a <;> cases b <;> simp_all [Val.lt, Val.Genuine]

theorem Val.atMost_of {a b : Val K} (ha : a.Genuine) (h : ¬ b.lt a = true) : a.AtMost b := by
  cases a <;> cases b <;> simp_all [Val.lt, Val.Genuine, Val.AtMost]

theorem Val.AtMost.trans {a b c : Val K} (h : a.AtMost b) (h' : b.AtMost c) : a.AtMost c := by
  cases a <;> cases b <;> cases c <;> simp_all [Val.AtMost]
  exact le_trans h h'

theorem Val.lt_inf_iff {a : Val K} : a.lt .inf = true ↔ a.Genuine := by
  cases a <;> simp [Val.lt, Val.Genuine]

variable {σ : Type} {F : Point K → σ → σ × Except Err (Val K)} {Inv : σ → Prop}
  {f : Point K → Except Err (Val K)}

theorem gridLoop_spec (hF : Tame Inv F f) : ∀ (cs : List (Point K)) (i : Nat) (b : Val K × Option Nat) (s s' : σ)
    (b' : Val K × Option Nat), Inv s → gridLoop F i cs b s = (s', .ok b') →
    Inv s' ∧ (∀ c ∈ cs, ∃ u, f c = .ok u ∧ ¬ u.lt b'.1 = true) ∧ ¬ b.1.lt b'.1 = true ∧
    (b' = b ∨ ∃ j, ∃ hj : j < cs.length, b'.2 = some (i + j) ∧ f cs[j] = .ok b'.1 ∧ b'.1.lt b.1 = true ∧
      ∀ k, (hk : k < j) → ∀ u, f cs[k] = .ok u → u = .nan ∨ b'.1.lt u = true) := by
  intro cs
  induction cs with
  | nil =>
    intro i b s s' b' hs h
    simp only [gridLoop, Prod.mk.injEq, Except.ok.injEq] at h
    obtain ⟨rfl, rfl⟩ := h
    refine ⟨hs, by simp, ?_, Or.inl rfl⟩
    cases b.1 <;> simp [Val.lt]
  | cons c cs ih =>
    intro i b s s' b' hs h
    obtain ⟨h1, h2⟩ := hF c s hs
    simp only [gridLoop] at h
    rcases hFc : F c s with ⟨s1, r⟩
    rw [hFc] at h h1 h2
    cases r with
    | error e => simp at h
    | ok u =>
      simp only at h h1 h2
      obtain ⟨g1, g2, g3, g4⟩ := ih _ _ _ _ _ h1 h
      by_cases hu : u.lt b.1 = true
      · rw [if_pos hu] at g3 g4
        refine ⟨g1, ?_, ?_, ?_⟩
        · intro d hd
          rcases mem_cons.1 hd with rfl | hd
          · exact ⟨u, h2.symm, g3⟩
          · exact g2 d hd
        · intro hb
          exact g3 (Val.lt_trans hu hb)
        · right
          rcases g4 with rfl | ⟨j, hj, e1, e2, e3, e4⟩
          · exact ⟨0, by simp, rfl, h2.symm, hu, fun k hk => absurd hk (by omega)⟩
          · refine ⟨j + 1, by simpa using hj, by rw [e1]; congr 1; omega, by simpa using e2,
              Val.lt_trans e3 hu, ?_⟩
            intro k hk v hv
            cases k with
            | zero =>
              have : v = u := by
                have : f c = .ok v := by simpa using hv
                rw [← h2] at this
                exact (Except.ok.inj this).symm
              rw [this]
              exact Or.inr e3
            | succ k => exact e4 k (by omega) v (by simpa using hv)
      · rw [if_neg hu] at g3 g4
        refine ⟨g1, ?_, g3, ?_⟩
        · intro d hd
          rcases mem_cons.1 hd with rfl | hd
          · refine ⟨u, h2.symm, ?_⟩
            rcases g4 with rfl | ⟨j, hj, e1, e2, e3, e4⟩
            · exact hu
            · exact fun hlt => hu (Val.lt_trans hlt e3)
          · exact g2 d hd
        · rcases g4 with rfl | ⟨j, hj, e1, e2, e3, e4⟩
          · exact Or.inl rfl
          · right
            refine ⟨j + 1, by simpa using hj, by rw [e1]; congr 1; omega, by simpa using e2, e3, ?_⟩
            intro k hk v hv
            cases k with
            | zero =>
              have : v = u := by
                have : f c = .ok v := by simpa using hv
                rw [← h2] at this
                exact (Except.ok.inj this).symm
              rw [this]
              exact Val.lt_of_lt_of_not e3 hu
            | succ k => exact e4 k (by omega) v (by simpa using hv)

theorem gridLoop_ok (hF : Tame Inv F f) : ∀ (cs : List (Point K)) (i : Nat) (b : Val K × Option Nat) (s : σ),
    Inv s → (∀ c ∈ cs, ∃ u, f c = .ok u) → ∃ s' b', gridLoop F i cs b s = (s', .ok b') := by
  intro cs
  induction cs with
  | nil => intro i b s _ _; exact ⟨s, b, rfl⟩
  | cons c cs ih =>
    intro i b s hs h
    obtain ⟨h1, h2⟩ := hF c s hs
    obtain ⟨u, hu⟩ := h c (by simp)
    simp only [gridLoop]
    rcases hFc : F c s with ⟨s1, r⟩
    rw [hFc] at h1 h2
    simp only at h1 h2
    rw [hu] at h2
    subst h2
    exact ih _ _ _ h1 fun d hd => h d (by simp [hd])

theorem gridLoop_error (hF : Tame Inv F f) (e : Err) (c : Point K) : ∀ (pre : List (Point K)) (i : Nat)
    (post : List (Point K)) (b : Val K × Option Nat) (s : σ),
    Inv s → (∀ c ∈ pre, ∃ u, f c = .ok u) → f c = .error e →
    ∃ s', Inv s' ∧ gridLoop F i (pre ++ c :: post) b s = (s', .error e) := by
  intro pre
  induction pre with
  | nil =>
    intro i post b s hs _ he
    obtain ⟨h1, h2⟩ := hF c s hs
    simp only [nil_append, gridLoop]
    rcases hFc : F c s with ⟨s1, r⟩
    rw [hFc] at h1 h2
    simp only at h1 h2
    rw [he] at h2
    subst h2
    exact ⟨s1, h1, rfl⟩
  | cons d pre ih =>
    intro i post b s hs h he
    obtain ⟨h1, h2⟩ := hF d s hs
    obtain ⟨u, hu⟩ := h d (by simp)
    simp only [cons_append, gridLoop]
    rcases hFc : F d s with ⟨s1, r⟩
    rw [hFc] at h1 h2
    simp only at h1 h2
    rw [hu] at h2
    subst h2
    exact ih _ _ _ _ h1 (fun d hd => h d (by simp [hd])) he

theorem Optim.run_spec (hF : Tame Inv F f) (pow10 : Point K → Point K) (big : K) : ∀ (o : Optim K)
    (asked : List (Point K × Val K)) (s s' : σ) (r : OptRes K), Inv s → o.Honest asked →
    (∀ p ∈ asked, ∃ u, f (pow10 p.1) = .ok u ∧ p.2 = u.clip big) →
    o.run (logFunc pow10 big F) s = (s', .ok r) →
    Inv s' ∧ (r.success = true → ∃ u, f (pow10 r.x) = .ok u ∧ r.fun_ = u.clip big) := by
  intro o
  induction o with
  | done r =>
    intro asked s s' r' hs ho ha h
    simp only [Optim.run, Prod.mk.injEq, Except.ok.injEq] at h
    obtain ⟨rfl, rfl⟩ := h
    exact ⟨hs, fun hsuc => ha _ (ho hsuc)⟩
  | fail e => intro asked s s' r' hs ho ha h; simp [Optim.run] at h
  | ask x next ih =>
    intro asked s s' r hs ho ha h
    obtain ⟨h1, h2⟩ := hF (pow10 x) s hs
    simp only [Optim.run, logFunc] at h
    rcases hFc : F (pow10 x) s with ⟨s1, q⟩
    rw [hFc] at h h1 h2
    cases q with
    | error e => simp at h
    | ok u =>
      simp only at h h1 h2
      refine ih _ ((x, u.clip big) :: asked) s1 s' r h1 (ho _) ?_ h
      intro p hp
      rcases mem_cons.1 hp with rfl | hp
      · exact ⟨u, h2.symm, rfl⟩
      · exact ha p hp

theorem Val.clip_ne {big : K} {v : Val K} (h : v.clip big ≠ .num big) : v.clip big = v ∧ v.Genuine := by
  unfold Val.clip at h ⊢
  by_cases hv : v.lt (.num big) = true
  · exact ⟨by rw [if_pos hv], Val.genuine_of_lt hv⟩
  · rw [if_neg hv] at h
    exact absurd rfl h

/-- The processed grid consists of the candidates, possibly in another order. -/
theorem process_points {c : Cands K} {g : Grid K} (h : c.process = .ok g) :
    g.points.Perm c.points ∧ c.points ≠ [] := by
  cases c with
  | num x =>
    simp only [Cands.process, Except.ok.injEq] at h
    subst h
    simp [Grid.points, Cands.points]
  | nums xs =>
    cases xs with
    | nil => simp [Cands.process] at h
    | cons x xs =>
      simp only [Cands.process, Except.ok.injEq] at h
      subst h
      exact ⟨(perm_insertionSort _ _).map _, by simp [Cands.points]⟩
  | vecs vs =>
    cases vs with
    | nil => simp [Cands.process] at h
    | cons v vs =>
      simp only [Cands.process] at h
      by_cases h1 : (vs.any fun w => w.length != v.length) = true
      · rw [if_pos h1] at h; cases h
      · rw [if_neg h1] at h
        have hl : ∀ w ∈ v :: vs, w.length = v.length := by
          intro w hw
          rcases mem_cons.1 hw with rfl | hw
          · rfl
          · by_contra hne
            exact h1 (any_eq_true.2 ⟨w, hw, by simpa using hne⟩)
        by_cases h2 : v.length = 1
        · rw [if_pos h2] at h
          simp only [Except.ok.injEq] at h
          subst h
          refine ⟨?_, by simp [Cands.points]⟩
          refine ((perm_insertionSort _ _).map _).trans (Perm.of_eq ?_)
          simp only [Cands.points]
          have : ∀ l : List (List K), (∀ w ∈ l, w.length = 1) → l.flatten.map Point.num =
              l.map fun v => match v with
                | [x] => .num x
                | v => .vec v := by
            intro l hl
            induction l with
            | nil => rfl
            | cons w l ih =>
              obtain ⟨x, rfl⟩ := length_eq_one_iff.1 (hl w (by simp))
              simp only [flatten_cons, map_cons, cons_append, nil_append]
              rw [ih fun w hw => hl w (by simp [hw])]
          exact this _ fun w hw => (hl w hw).trans h2
        · rw [if_neg h2] at h
          simp only [Except.ok.injEq] at h
          subst h
          refine ⟨Perm.of_eq ?_, by simp [Cands.points]⟩
          simp only [Grid.points, Cands.points]
          refine map_congr_left fun w hw => ?_
          have := hl w hw
          match w, this with
          | [], _ => rfl
          | [x], hx => exact absurd hx.symm (by simpa using h2)
          | _ :: _ :: _, _ => rfl

end order

/-! ### Theorems -/

section main

variable [Field K] [LinearOrder K] {σ : Type} {F : Point K → σ → σ × Except Err (Val K)} {Inv : σ → Prop}
  {f : Point K → Except Err (Val K)} {pow10 : Point K → Point K} {big : K} {optimiser : Start K → Optim K}

/-- If the grid search returns a point, its value is genuine (not NaN, not `inf`) and not above the value at
any candidate, whatever the optimiser does. -/
theorem C48_never_worse (hF : Tame Inv F f) (ho : ∀ st, (optimiser st).Honest []) (c : Cands K) (only : Bool)
    (s s' : σ) (w : Point K) (hs : Inv s)
    (h : gridsearch pow10 big optimiser F c only s = (s', .ok w)) :
    Inv s' ∧ ∃ v, f w = .ok v ∧ v.Genuine ∧ ∀ p ∈ c.points, ∃ u, f p = .ok u ∧ v.AtMost u := by
  simp only [gridsearch] at h
  cases hc : c.process with
  | error e => rw [hc] at h; simp at h
  | ok g =>
    rw [hc] at h
    simp only at h
    rcases hl : gridLoop F 0 g.points (.inf, none) s with ⟨s1, r⟩
    rw [hl] at h
    cases r with
    | error e => simp at h
    | ok b =>
      obtain ⟨v, idx⟩ := b
      cases idx with
      | none => simp at h
      | some i =>
        simp only at h
        obtain ⟨hs1, hall, -, hidx⟩ := gridLoop_spec hF _ _ _ _ _ _ hs hl
        rcases hidx with hidx | ⟨j, hj, e1, e2, e3, -⟩
        · simp at hidx
        · have hij : i = j := by simpa using e1
          subst hij
          have hgen : v.Genuine := Val.genuine_of_lt e3
          have hbest : ∀ p ∈ c.points, ∃ u, f p = .ok u ∧ v.AtMost u := by
            intro p hp
            obtain ⟨u, hu, hlt⟩ := hall p ((process_points hc).1.symm.subset hp)
            exact ⟨u, hu, Val.atMost_of hgen hlt⟩
          have hw : f (g.points.getD i (.num 0)) = .ok v := by
            rw [getD_eq_getElem?_getD, getElem?_eq_getElem hj, Option.getD_some]
            exact e2
          cases only with
          | true =>
            simp only [if_true, Prod.mk.injEq, Except.ok.injEq] at h
            obtain ⟨rfl, rfl⟩ := h
            exact ⟨hs1, v, hw, hgen, hbest⟩
          | false =>
            simp only [Bool.false_eq_true, if_false] at h
            rcases hr : (optimiser (g.start i)).run (logFunc pow10 big F) s1 with ⟨s2, q⟩
            rw [hr] at h
            cases q with
            | error e => simp at h
            | ok r =>
              simp only [Prod.mk.injEq, Except.ok.injEq] at h
              obtain ⟨rfl, rfl⟩ := h
              obtain ⟨hs2, hsuc⟩ := Optim.run_spec hF pow10 big _ [] _ _ _ hs1 (ho _) (by simp) hr
              refine ⟨hs2, ?_⟩
              unfold chooseWinner
              by_cases hch : (!(r.success && decide (r.fun_ ≠ .num big)) || v.lt r.fun_) = true
              · rw [if_pos hch]
                exact ⟨v, hw, hgen, hbest⟩
              · rw [if_neg hch]
                simp only [Bool.or_eq_true, Bool.not_eq_true', Bool.and_eq_false_iff, decide_eq_false_iff_not,
                  not_or, Bool.not_eq_false, not_not, Bool.not_eq_true] at hch
                obtain ⟨⟨hsu, hne⟩, hlt⟩ := hch
                obtain ⟨u, hu, hfun⟩ := hsuc hsu
                rw [hfun] at hne hlt
                obtain ⟨hcl, hug⟩ := Val.clip_ne hne
                rw [hcl] at hlt
                refine ⟨u, hu, hug, fun p hp => ?_⟩
                obtain ⟨u', hu', hle⟩ := hbest p hp
                exact ⟨u', hu', (Val.atMost_of hug (by simp [hlt])).trans hle⟩

/-- With `gridsearch_only` the result is a candidate, and the first one (of the sorted candidates) with the
smallest value. -/
theorem C48_grid_only (hF : Tame Inv F f) (c : Cands K) (s s' : σ) (w : Point K) (hs : Inv s)
    (h : gridsearch pow10 big optimiser F c true s = (s', .ok w)) :
    w ∈ c.points ∧ ∃ g v pre post, c.process = .ok g ∧ g.points = pre ++ w :: post ∧ f w = .ok v ∧
      ∀ p ∈ pre, ∀ u, f p = .ok u → u = .nan ∨ v.lt u = true := by
  simp only [gridsearch] at h
  cases hc : c.process with
  | error e => rw [hc] at h; simp at h
  | ok g =>
    rw [hc] at h
    simp only at h
    rcases hl : gridLoop F 0 g.points (.inf, none) s with ⟨s1, r⟩
    rw [hl] at h
    cases r with
    | error e => simp at h
    | ok b =>
      obtain ⟨v, idx⟩ := b
      cases idx with
      | none => simp at h
      | some i =>
        simp only [if_true, Prod.mk.injEq, Except.ok.injEq] at h
        obtain ⟨-, -, -, hidx⟩ := gridLoop_spec hF _ _ _ _ _ _ hs hl
        rcases hidx with hidx | ⟨j, hj, e1, e2, -, e4⟩
        · simp at hidx
        · have hij : i = j := by simpa using e1
          subst hij
          have hw : w = g.points[i] := by
            rw [← h.2, getD_eq_getElem?_getD, getElem?_eq_getElem hj, Option.getD_some]
          refine ⟨(process_points hc).1.subset (hw ▸ getElem_mem hj), g, v, g.points.take i,
            g.points.drop (i + 1), rfl, ?_, by rw [hw]; exact e2, ?_⟩
          · rw [hw, getElem_cons_drop, take_append_drop]
          · intro p hp u hu
            obtain ⟨k, hk, rfl⟩ := mem_iff_getElem.1 hp
            have hk' : k < i := by
              rw [length_take] at hk
              omega
            exact e4 k hk' u (by simpa using hu)

/-- The search fails with RuntimeError exactly if every candidate evaluates to `inf` or NaN. -/
theorem C48_all_unstable (hF : Tame Inv F f) (c : Cands K) (g : Grid K) (hc : c.process = .ok g) (s : σ) (hs : Inv s)
    (hok : ∀ p ∈ c.points, ∃ u, f p = .ok u) :
    (∀ only, (∀ p ∈ c.points, ∀ u, f p = .ok u → ¬ u.Genuine) →
      ∃ s', gridsearch pow10 big optimiser F c only s = (s', .error .runtime)) ∧
    ((∃ p ∈ c.points, ∃ u, f p = .ok u ∧ u.Genuine) →
      ∃ s' w, gridsearch pow10 big optimiser F c true s = (s', .ok w)) := by
  obtain ⟨hperm, -⟩ := process_points hc
  obtain ⟨s1, ⟨v, idx⟩, hl⟩ := gridLoop_ok hF g.points 0 (.inf, none) s hs
    fun p hp => hok p (hperm.subset hp)
  obtain ⟨-, hall, -, hidx⟩ := gridLoop_spec hF _ _ _ _ _ _ hs hl
  constructor
  · intro only hun
    have : idx = none := by
      rcases hidx with hidx | ⟨j, hj, e1, e2, e3, -⟩
      · simpa using congrArg Prod.snd hidx
      · exact absurd (Val.genuine_of_lt e3) (hun _ (hperm.subset (getElem_mem hj)) _ e2)
    subst this
    exact ⟨s1, by simp only [gridsearch, hc, hl]⟩
  · rintro ⟨p, hp, u, hu, hgen⟩
    obtain ⟨u', hu', hlt⟩ := hall p (hperm.symm.subset hp)
    rw [hu] at hu'
    obtain rfl := Except.ok.inj hu'
    rcases hidx with hidx | ⟨j, hj, e1, e2, e3, -⟩
    · have : v = .inf := by simpa using congrArg Prod.fst hidx
      subst this
      exact absurd (Val.lt_inf_iff.2 hgen) hlt
    · simp only at e1
      subst e1
      exact ⟨s1, g.points.getD (0 + j) (.num 0), by simp only [gridsearch, hc, hl, if_true]⟩

/-- An exception raised by the function at a candidate is passed on (the first one in the order of the grid). -/
theorem C48_exception (hF : Tame Inv F f) (c : Cands K) (g : Grid K) (hc : c.process = .ok g) (only : Bool) (s : σ)
    (hs : Inv s) (e : Err) (pre post : List (Point K)) (p : Point K) (hg : g.points = pre ++ p :: post)
    (hpre : ∀ q ∈ pre, ∃ u, f q = .ok u) (hp : f p = .error e) :
    ∃ s', Inv s' ∧ gridsearch pow10 big optimiser F c only s = (s', .error e) := by
  obtain ⟨s', hs', hl⟩ := gridLoop_error hF e p pre 0 post (.inf, none) s hs hpre hp
  rw [← hg] at hl
  exact ⟨s', hs', by simp only [gridsearch, hc, hl]⟩

/-- Candidates are refused exactly if there are none or if they have different lengths. -/
theorem C48_candidates (c : Cands K) :
    (∃ g, c.process = .ok g) ↔ c.points ≠ [] ∧
      ∀ vs, c = .vecs vs → ∀ v ∈ vs, ∀ w ∈ vs, v.length = w.length := by
  cases c with
  | num x => simp [Cands.process, Cands.points]
  | nums xs => cases xs <;> simp [Cands.process, Cands.points]
  | vecs vs =>
    cases vs with
    | nil => simp [Cands.process, Cands.points]
    | cons v vs =>
      by_cases h : (vs.any fun w => w.length != v.length) = true
      · simp only [Cands.process, if_pos h]
        constructor
        · rintro ⟨g, hg⟩; cases hg
        · rintro ⟨-, h2⟩
          obtain ⟨w, hw, hne⟩ := any_eq_true.1 h
          exact absurd (h2 _ rfl w (by simp [hw]) v (by simp)) (by simpa using hne)
      · simp only [Cands.process, if_neg h]
        constructor
        · intro _
          refine ⟨by simp [Cands.points], ?_⟩
          intro us hus
          have : us = v :: vs := by simpa using hus.symm
          subst this
          have hl : ∀ w ∈ v :: vs, w.length = v.length := by
            intro w hw
            rcases mem_cons.1 hw with rfl | hw
            · rfl
            · by_contra hne
              exact h (any_eq_true.2 ⟨w, hw, by simpa using hne⟩)
          exact fun a ha b hb => (hl a ha).trans (hl b hb).symm
        · intro _
          by_cases h2 : v.length = 1
          · exact ⟨_, if_pos h2⟩
          · exact ⟨_, if_neg h2⟩

/-- For positive numbers, the interval searched by the optimiser is made of positive numbers, contains the
winner of the grid search, and reaches at most to the neighbouring candidates. -/
theorem C48_bounds [IsStrictOrderedRing K] (xs : List K) (hsort : xs.Pairwise (· ≤ ·)) (hpos : ∀ x ∈ xs, 0 < x)
    (i : Nat) (hi : i < xs.length) :
    0 < (searchBounds xs i).1 ∧ (searchBounds xs i).1 ≤ xs[i] ∧ xs[i] ≤ (searchBounds xs i).2 ∧
    (∀ j, (hj : j < i) → xs[j] ≤ (searchBounds xs i).1) ∧
    (∀ j, i < j → (hj : j < xs.length) → (searchBounds xs i).2 ≤ xs[j]) := by
  have le : ∀ a b, (hab : a ≤ b) → (hb : b < xs.length) → xs[a]'(by omega) ≤ xs[b] := by
    intro a b hab hb
    rcases Nat.lt_or_eq_of_le hab with h | rfl
    · exact pairwise_iff_getElem.1 hsort a b (by omega) hb h
    · exact le_refl _
  have gd : ∀ j, (hj : j < xs.length) → xs.getD j 0 = xs[j] := by
    intro j hj
    rw [getD_eq_getElem?_getD, getElem?_eq_getElem hj, Option.getD_some]
  have hp := hpos _ (getElem_mem hi)
  have h1 : 0 < xs[i] / 100 := by positivity
  have h2 : xs[i] / 100 ≤ xs[i] := by linarith
  have h3 : xs[i] ≤ 100 * xs[i] := by linarith
  unfold searchBounds
  by_cases c1 : xs.length = 1
  · rw [if_pos c1, gd i hi]
    exact ⟨h1, h2, h3, fun j hj => by omega, fun j hj hj' => by omega⟩
  · rw [if_neg c1]
    by_cases c2 : i = 0
    · subst c2
      rw [if_pos rfl, gd 0 hi, gd 1 (by omega)]
      exact ⟨h1, h2, le 0 1 (by omega) (by omega), fun j hj => by omega, fun j hj hj' => le 1 j hj hj'⟩
    · rw [if_neg c2]
      by_cases c3 : i = xs.length - 1
      · rw [if_pos c3, gd i hi, gd (xs.length - 2) (by omega)]
        exact ⟨hpos _ (getElem_mem _), le _ i (by omega) hi, h3, fun j hj => le j _ (by omega) (by omega),
          fun j hj hj' => by omega⟩
      · rw [if_neg c3, gd (i - 1) (by omega), gd (i + 1) (by omega)]
        exact ⟨hpos _ (getElem_mem _), le _ i (by omega) hi, le i _ (by omega) (by omega),
          fun j hj => le j _ (by omega) (by omega), fun j hj hj' => le _ j hj hj'⟩

/-- The numbers handed to `C48_bounds` are sorted whatever the order in which the user lists them. -/
theorem C48_sorted {c : Cands K} {xs : List K} (h : c.process = .ok (.scalars xs)) :
    xs.Pairwise (· ≤ ·) ∧ (∀ x, x ∈ xs ↔ Point.num x ∈ c.points) := by
  refine ⟨?_, fun x => ?_⟩
  · cases c with
    | num x => simp only [Cands.process, Except.ok.injEq, Grid.scalars.injEq] at h; subst h; simp
    | nums ys =>
      cases ys with
      | nil => simp [Cands.process] at h
      | cons y ys =>
        simp only [Cands.process, Except.ok.injEq, Grid.scalars.injEq] at h
        subst h
        exact pairwise_insertionSort _ _
    | vecs vs =>
      cases vs with
      | nil => simp [Cands.process] at h
      | cons v vs =>
        simp only [Cands.process] at h
        split at h
        · cases h
        · split at h
          · simp only [Except.ok.injEq, Grid.scalars.injEq] at h
            subst h
            exact pairwise_insertionSort _ _
          · simp at h
  · have := (process_points h).1.mem_iff (a := Point.num x)
    simpa [Grid.points] using this

end main

/-! ### Examples -/

/-- `f(x) = (x - 3)^2`, unstable above 5, undefined (NaN) at 1; counts its evaluations. -/
def exFunc (p : Point ℚ) (s : Nat) : Nat × Except Err (Val ℚ) :=
  (s + 1, match p with
    | .num x => .ok (if 5 < x then .inf else if x = 1 then .nan else .num ((x - 3) ^ 2))
    | .vec _ => .error .value)

theorem exFunc_tame : Tame (fun _ => True) exFunc (fun p => (exFunc p 0).2) := fun _ _ _ => ⟨trivial, rfl⟩

/-- An optimiser that tries the two ends of the interval and the middle and reports the middle. -/
def exOptim : Start ℚ → Optim ℚ
  | .bounded a b => .ask (.num a) fun _ => .ask (.num b) fun _ => .ask (.num ((a + b) / 2)) fun v =>
      .done ⟨.num ((a + b) / 2), v, true⟩
  | .simplex _ => .fail .value

theorem exOptim_honest (st : Start ℚ) : (exOptim st).Honest [] := by
  cases st with
  | bounded a b => intro u v w _; simp
  | simplex x => trivial

-- candidates 1 (NaN), 2, 5, 9 (unstable), given unsorted: the winner is 2, and the optimiser improves to 3.
example : gridsearch id (10 ^ 20) exOptim exFunc (.nums [9, 5, 2, 1]) false 0 = (7, .ok (.num 3)) := by
  decide +kernel

example : gridsearch id (10 ^ 20) exOptim exFunc (.nums [9, 5, 2, 1]) true 0 = (4, .ok (.num 2)) := by
  decide +kernel

-- one-entry arrays are numbers; here the optimiser does worse and the grid winner is kept.
example : gridsearch id (10 ^ 20) exOptim exFunc (.vecs [[3], [7/2]]) false 0 = (5, .ok (.num 3)) := by
  decide +kernel

-- all candidates unstable or NaN.
example : gridsearch id (10 ^ 20) exOptim exFunc (.nums [9, 1, 6]) false 0 = (3, .error .runtime) := by
  decide +kernel

example : gridsearch id (10 ^ 20) exOptim exFunc (.vecs [[1, 2]]) false 0 = (1, .error .value) := by
  decide +kernel

example : (gridsearch id (10 ^ 20) exOptim exFunc (.nums []) false 0).2 = .error .index := by
  decide +kernel

end Opinf
