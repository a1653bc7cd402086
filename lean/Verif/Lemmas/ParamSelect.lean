import Verif.Model.ParamSelect
import Verif.Lemmas.RegSelect
import Verif.Props.RegSelect
import Verif.Lemmas.Transform

/-!
# Lemmas on the selection of the regularization of parametric models
-/

namespace Opinf

open List

variable {K S C X : Type}

/-! ### Selection in general -/

/-- The outcome of `update_model` does not depend on the candidates tried before. -/
structure SelI.Steady (J : SelI K X) (M1 : X) (Inv : X → Prop) : Prop where
  start : Inv M1
  keep : ∀ N p, Inv N → Inv (J.update N p).1
  same : ∀ N p, Inv N → (J.update N p).2 = (J.update M1 p).2 ∧
    ((J.update N p).2 = .ok () → (J.update N p).1 = (J.update M1 p).1)

theorem selError_tame [Field K] {J : SelI K X} {M1 : X} {Inv : X → Prop} (hJ : J.Steady M1 Inv)
    (tests : List (RegCase K X)) (trains : List (TrainCase K X)) :
    Tame Inv (J.trainingError tests trains) (fun p => (J.trainingError tests trains p M1).2) := by
  intro p N hN
  have h3 := hJ.keep N p hN
  obtain ⟨h1, h2⟩ := hJ.same N p hN
  simp only [SelI.trainingError]
  rcases hu : J.update N p with ⟨N', x⟩
  rcases hv : J.update M1 p with ⟨M', y⟩
  rw [hu, hv] at h1 h2
  rw [hu] at h3
  simp only at h1 h2 h3
  subst h1
  cases x with
  | error e => exact ⟨h3, rfl⟩
  | ok _ =>
    rw [h2 rfl] at h3 ⊢
    exact ⟨h3, rfl⟩

theorem selError_scores [Field K] (J : SelI K X) (tests : List (RegCase K X)) (trains : List (TrainCase K X))
    (p : Point K) (M : X) (v : Val K) (hv : v.Genuine) : (J.trainingError tests trains p M).2 = .ok v ↔
      ∃ N, J.update M p = (N, .ok ()) ∧ Scores tests trains N v := by
  simp only [SelI.trainingError]
  rcases hu : J.update M p with ⟨N, x⟩
  cases x with
  | error e =>
    simp only [Except.ok.injEq, Prod.mk.injEq, reduceCtorEq, and_false, false_and, exists_false, iff_false]
    rintro rfl
    exact hv
  | ok _ =>
    simp only [evalModel_scores tests trains N v hv, Prod.mk.injEq, and_true]
    constructor
    · exact fun h => ⟨N, rfl, h⟩
    · rintro ⟨_, rfl, h⟩; exact h

theorem sel_selected [Field K] [LinearOrder K] {J : SelI K X} {M1 : X} {Inv : X → Prop} (hJ : J.Steady M1 Inv)
    {G : Search K} (ho : ∀ st, (G.optimiser st).Honest [])
    (cases : Except Err (List (RegCase K X) × List (TrainCase K X))) (c : Cands K) (only : Bool) (M' : X)
    (h : J.select G cases c only M1 = (M', .ok ())) :
    ∃ tests trains w v, cases = .ok (tests, trains) ∧
      J.update M1 w = (M', .ok ()) ∧ Scores tests trains M' v ∧ v.Genuine ∧
      (only = true → w ∈ c.points) ∧
      ∀ p ∈ c.points, ∀ N u, J.update M1 p = (N, .ok ()) → Scores tests trains N u → u.Genuine → v.AtMost u := by
  simp only [SelI.select] at h
  cases hcs : cases with
  | error e => rw [hcs] at h; simp at h
  | ok tt =>
    obtain ⟨tests, trains⟩ := tt
    rw [hcs] at h
    simp only at h
    rcases hg : gridsearch G.pow10 G.big G.optimiser (J.trainingError tests trains) c only M1 with ⟨M2, y⟩
    rw [hg] at h
    cases y with
    | error e => simp at h
    | ok w =>
      simp only at h
      have hT := selError_tame hJ tests trains
      obtain ⟨hal, v, hv, hgen, hall⟩ := C48_never_worse hT ho c only M1 M2 w hJ.start hg
      obtain ⟨N, hN, hs⟩ := (selError_scores J tests trains w M1 v hgen).1 hv
      obtain ⟨e1, e2⟩ := hJ.same M2 w hal
      rw [h, hN] at e1 e2
      have := e2 rfl
      simp only at this
      subst this
      refine ⟨tests, trains, w, v, rfl, hN, hs, hgen, ?_, ?_⟩
      · rintro rfl
        exact (C48_grid_only hT c M1 M2 w hJ.start hg).1
      · intro p hp N u hN' hs' hu
        obtain ⟨u', h1, h2⟩ := hall p hp
        rw [(selError_scores J tests trains p M1 u hu).2 ⟨N, hN', hs'⟩] at h1
        simp only [Except.ok.injEq] at h1
        rw [h1]
        exact h2

/-! ### Interpolated operators -/

/-- The operator without its entries and with the class of interpolators it is going to use. -/
def Interp.bare [LinearOrder K] (t : Interp K) : Interp K :=
  { t with entries := none, itp := none, cls := match t.params with
    | none => t.cls
    | some P => some (itpData t.cls P []).1 }

/-- A class of interpolators is given, or the training parameters are vectors, or they are in increasing order. -/
def Interp.Ordered [LinearOrder K] (t : Interp K) : Prop :=
  t.cls = none → ∀ xs, t.params = some (.one xs) → xs.Pairwise (· ≤ ·)

theorem itpData_inOrder [LinearOrder K] (t : Interp K) (ht : t.Ordered) (P : PArr K) (hP : t.params = some P)
    (As : List (Mat K)) (hl : As.length = P.length) : itpData t.cls P As = ((itpData t.cls P []).1, P, As) := by
  cases hc : t.cls with
  | some c => rfl
  | none =>
    cases P with
    | two p rows => rfl
    | one xs =>
      have hs := ht hc xs hP
      have h1 : sortPairs xs As = zip xs As := by
        rw [sortPairs]
        refine List.Pairwise.insertionSort_eq ?_
        have : (zip xs As).map Prod.fst = xs := map_fst_zip (le_of_eq hl.symm)
        rw [← this, pairwise_map] at hs
        exact hs
      simp only [itpData, h1]
      rw [map_fst_zip (le_of_eq hl.symm), map_snd_zip (le_of_eq hl)]

theorem itpData_again [LinearOrder K] (c : Option ItpClass) (P : PArr K) :
    (itpData (some (itpData c P []).1) P ([] : List (Mat K))).1 = (itpData c P []).1 := rfl

theorem parseEntries_length [AddMonoid K] {kind : OpKind} {n : Nat} {e : EntArg K} {As : List (Mat K)}
    (h : parseEntries kind n e = .ok As) : As.length = n := by
  simp only [parseEntries, bind, Except.bind, throw, throwThe, MonadExceptOf.throw, pure, Except.pure] at h
  split at h
  · cases h
  · rename_i Bs _
    split at h
    · cases h
    · split at h
      · cases h
      · rename_i hn
        rw [mapM_ok_length h]
        simpa using hn

theorem setEntries_bare [AddMonoid K] [LinearOrder K] (lib : ItpLib K) (t u : Interp K) (h : t.bare = u.bare)
    (ht : t.Ordered) (hu : u.Ordered) (e : EntArg K) :
    (t.setEntries lib e).2 = (u.setEntries lib e).2 ∧
    ((t.setEntries lib e).2 = .ok () → (t.setEntries lib e).1 = (u.setEntries lib e).1) ∧
    (t.setEntries lib e).1.bare = t.bare ∧ (t.setEntries lib e).1.Ordered := by
  have hk : t.kind = u.kind := (congrArg Interp.kind h :)
  have hp : t.params = u.params := (congrArg Interp.params h :)
  have hp' : t.p = u.p := (congrArg Interp.p h :)
  cases hP : t.params with
  | none =>
    have hPu : u.params = none := hp ▸ hP
    have h1 : t.setEntries lib e = (t, .error .attribute) := by rw [Interp.setEntries, hP]
    have h2 : u.setEntries lib e = (u, .error .attribute) := by rw [Interp.setEntries, hPu]
    rw [h1, h2]
    exact ⟨rfl, fun h => by (cases h), rfl, ht⟩
  | some P =>
    have hPu : u.params = some P := hp ▸ hP
    have hc : (itpData t.cls P ([] : List (Mat K))).1 = (itpData u.cls P ([] : List (Mat K))).1 := by
      have := congrArg Interp.cls h
      simp only [Interp.bare, hP, hPu, Option.some.injEq] at this
      exact this
    cases hpe : parseEntries t.kind P.length e with
    | error err =>
      have h1 : t.setEntries lib e = (t, .error err) := by rw [Interp.setEntries, hP]; simp only [hpe]
      have h2 : u.setEntries lib e = (u, .error err) := by rw [Interp.setEntries, hPu]; simp only [← hk, hpe]
      rw [h1, h2]
      exact ⟨rfl, fun h => by (cases h), rfl, ht⟩
    | ok As =>
      have hl := parseEntries_length hpe
      have ht1 := itpData_inOrder t ht P hP As hl
      have hu1 := itpData_inOrder u hu P hPu As hl
      obtain ⟨kind, params, p, ents, cls, itp⟩ := t
      obtain ⟨kind', params', p', ents', cls', itp'⟩ := u
      simp only at hk hp hp' hP hPu hc ht1 hu1 hpe
      subst hk hp hp' hP
      simp only [Interp.setEntries, hpe, Interp.setInterpolator, ht1, hu1, ← hc]
      cases lib.build (itpData cls P ([] : List (Mat K))).1 P As with
      | error err => exact ⟨rfl, fun h => by (cases h), rfl, ht⟩
      | ok _ => exact ⟨rfl, fun _ => rfl, rfl, fun h => by (cases h)⟩

/-! ### Operators of parametric models -/

def POp.bare [LinearOrder K] : POp K → POp K
  | .np o => .np o.clear
  | .aff a => .aff { a with entries := none }
  | .itp t => .itp t.bare

def POp.Ordered [LinearOrder K] : POp K → Prop
  | .itp t => t.Ordered
  | _ => True

theorem setBlock_bare [AddMonoid K] [LinearOrder K] (lib : ItpLib K) (o o' : POp K) (h : o.bare = o'.bare)
    (ho : o.Ordered) (ho' : o'.Ordered) (B : Mat K) :
    (o.setBlock lib B).2 = (o'.setBlock lib B).2 ∧
    ((o.setBlock lib B).2 = .ok () → (o.setBlock lib B).1 = (o'.setBlock lib B).1) ∧
    (o.setBlock lib B).1.bare = o.bare ∧ (o.setBlock lib B).1.Ordered := by
  cases o with
  | np a =>
    cases o' with
    | np b =>
      simp only [POp.bare, POp.np.injEq] at h
      obtain ⟨k, E⟩ := a
      obtain ⟨k', E'⟩ := b
      have hk : k = k' := congrArg Op.kind h
      subst hk
      simp only [POp.setBlock]
      cases k.setEntries B with
      | error e => exact ⟨rfl, fun h => by (cases h), rfl, trivial⟩
      | ok E => exact ⟨rfl, fun _ => rfl, rfl, trivial⟩
    | aff b => cases h
    | itp b => cases h
  | aff a =>
    cases o' with
    | np b => cases h
    | aff b =>
      simp only [POp.bare, POp.aff.injEq] at h
      have hk : a.kind = b.kind := (congrArg Affine.kind h :)
      have hn : a.nterms = b.nterms := (congrArg Affine.nterms h :)
      simp only [POp.setBlock, Affine.setEntries, ← hk, ← hn]
      cases parseEntries a.kind a.nterms (.block B) with
      | error e => exact ⟨rfl, fun h => by (cases h), rfl, trivial⟩
      | ok As =>
        refine ⟨rfl, fun _ => ?_, rfl, trivial⟩
        obtain ⟨k, n, co, p, E⟩ := a
        obtain ⟨k', n', co', p', E'⟩ := b
        simp only [Affine.mk.injEq, and_true] at h
        obtain ⟨rfl, rfl, rfl, rfl⟩ := h
        rfl
    | itp b => cases h
  | itp t =>
    cases o' with
    | np b => cases h
    | aff b => cases h
    | itp u =>
      simp only [POp.bare, POp.itp.injEq] at h
      obtain ⟨h1, h2, h3, h4⟩ := setEntries_bare lib t u h ho ho' (.block B)
      exact ⟨h1, fun hh => congrArg POp.itp (h2 hh), congrArg POp.itp h3, h4⟩

theorem dim_bare [LinearOrder K] (o : POp K) (s r m : Nat) : o.bare.dim s r m = o.dim s r m := by
  cases o <;> rfl

/-- Operators to infer without their entries. -/
def PSlot.bare [LinearOrder K] (s : PSlot K) : PSlot K := if s.infer then { s with op := s.op.bare } else s

theorem PSlot.bare_infer [LinearOrder K] (s : PSlot K) : s.bare.infer = s.infer := by
  unfold PSlot.bare; split <;> rfl

theorem pExtract_bare [AddMonoid K] [LinearOrder K] (lib : ItpLib K) (n r m : Nat) (O : Mat K) :
    ∀ (ss tt : List (PSlot K)) (i : Nat), ss.map PSlot.bare = tt.map PSlot.bare →
    (∀ s ∈ ss, s.infer = true → s.op.Ordered) → (∀ s ∈ tt, s.infer = true → s.op.Ordered) →
    (pExtract lib n r m O i ss).2 = (pExtract lib n r m O i tt).2 ∧
    ((pExtract lib n r m O i ss).2 = .ok () → (pExtract lib n r m O i ss).1 = (pExtract lib n r m O i tt).1) ∧
    (pExtract lib n r m O i ss).1.map PSlot.bare = ss.map PSlot.bare ∧
    (∀ s ∈ (pExtract lib n r m O i ss).1, s.infer = true → s.op.Ordered) := by
  intro ss
  induction ss with
  | nil =>
    intro tt i h _ _
    cases tt with
    | nil => simp [pExtract]
    | cons t tt => simp at h
  | cons s ss ih =>
    intro tt i h hs ht
    cases tt with
    | nil => simp at h
    | cons t tt =>
      simp only [map_cons, cons.injEq] at h
      obtain ⟨h1, h2⟩ := h
      have hi : s.infer = t.infer := by rw [← PSlot.bare_infer s, ← PSlot.bare_infer t, h1]
      have hs' := fun x hx => hs x (mem_cons_of_mem _ hx)
      have ht' := fun x hx => ht x (mem_cons_of_mem _ hx)
      cases hsi : s.infer with
      | false =>
        have hti : t.infer = false := hi ▸ hsi
        have hst : s = t := by simpa [PSlot.bare, hsi, hti] using h1
        subst hst
        obtain ⟨e1, e2, e3, e4⟩ := ih tt i h2 hs' ht'
        simp only [pExtract, hsi, Bool.false_eq_true, if_false]
        refine ⟨e1, fun h => by rw [e2 h], by simp [e3], ?_⟩
        intro x hx hxi
        rcases mem_cons.1 hx with rfl | hx
        · rw [hsi] at hxi; cases hxi
        · exact e4 x hx hxi
      | true =>
        have hti : t.infer = true := hi ▸ hsi
        have hb : s.op.bare = t.op.bare := by
          simp only [PSlot.bare, hsi, hti, if_true, PSlot.mk.injEq] at h1
          exact h1.1
        have hd : s.op.dim n r m = t.op.dim n r m := by rw [← dim_bare, hb, dim_bare]
        obtain ⟨f1, f2, f3, f4⟩ := setBlock_bare lib s.op t.op hb (hs s mem_cons_self hsi) (ht t mem_cons_self hti)
          (O.colSlice i (i + s.op.dim n r m))
        obtain ⟨e1, e2, e3, e4⟩ := ih tt (i + s.op.dim n r m) h2 hs' ht'
        simp only [pExtract, hsi, hti, if_true, ← hd]
        rcases hx : s.op.setBlock lib (O.colSlice i (i + s.op.dim n r m)) with ⟨o, x⟩
        rcases hy : t.op.setBlock lib (O.colSlice i (i + s.op.dim n r m)) with ⟨o', y⟩
        rw [hx, hy] at f1 f2
        rw [hx] at f3 f4
        simp only at f1 f2 f3 f4
        subst f1
        have hbare : ({ op := o, infer := s.infer } : PSlot K).bare = s.bare := by
          simp only [PSlot.bare, hsi, if_true, f3]
        cases x with
        | error e =>
          refine ⟨rfl, fun h => by (cases h), ?_, ?_⟩
          · simp only [map_cons, ← hsi, hbare]
          · intro x hx hxi
            rcases mem_cons.1 hx with rfl | hx
            · exact f4
            · exact hs' x hx hxi
        | ok _ =>
          refine ⟨e1, fun h => ?_, ?_, ?_⟩
          · have h : (pExtract lib n r m O (i + s.op.dim n r m) ss).2 = .ok () := h
            simp only [f2 rfl, e2 h]
          · simp only [map_cons, ← hsi, hbare, e3]
          · intro x hx hxi
            rcases mem_cons.1 hx with rfl | hx
            · exact f4
            · exact e4 x hx hxi

/-! ### Parametric models -/

/-- Two models that differ at most in the learned entries and in the regularization. -/
structure PModel.Alike [LinearOrder K] (cfg : S → C) (M N : PModel K S) : Prop where
  slots : M.slots.map PSlot.bare = N.slots.map PSlot.bare
  ordered : ∀ s ∈ M.slots, s.infer = true → s.op.Ordered
  rest : { M with slots := N.slots, solver := N.solver } = N
  solver : M.solver.map cfg = N.solver.map cfg

theorem prefit_alike [AddMonoid K] [LinearOrder K] (lib : ItpLib K) (I : SolverI K S) {M N : PModel K S} {s : S}
    {cfg : S → C} (h : M.Alike cfg N) (hN' : ∀ s ∈ N.slots, s.infer = true → s.op.Ordered)
    (hint : N.intrusive = false) (hM : M.solver = some s) (hN : N.solver = some s) :
    (M.refit lib I).2 = (N.refit lib I).2 ∧ ((M.refit lib I).2 = .ok () → (M.refit lib I).1 = (N.refit lib I).1) ∧
    (M.refit lib I).1.Alike cfg N := by
  obtain ⟨h1, h2, h3, h4⟩ := h
  obtain ⟨slots, hin, r, m, intr, sol, p, n⟩ := M
  obtain ⟨slots', hin', r', m', intr', sol', p', n'⟩ := N
  simp only [PModel.mk.injEq, true_and, and_true] at h3
  obtain ⟨rfl, rfl, rfl, rfl, rfl, rfl⟩ := h3
  simp only at h1 h2 hint hM hN hN'
  subst hint hM hN
  simp only [PModel.refit, Bool.false_eq_true, if_false]
  cases I.solve s with
  | error e => exact ⟨rfl, fun h => by (cases h), h1, h2, rfl, rfl⟩
  | ok O =>
    cases n with
    | none => exact ⟨rfl, fun h => by (cases h), h1, h2, rfl, rfl⟩
    | some n =>
      obtain ⟨e1, e2, e3, e4⟩ := pExtract_bare lib n (r.getD 0) (m.getD 0) O slots slots' 0 h1 h2 hN'
      exact ⟨e1, fun h => by simp only [e2 h], e3.trans h1, e4, rfl, rfl⟩

/-- The selection of parametric models does not depend on the candidates tried before. -/
theorem pSelI_steady [CommRing K] [LinearOrder K] (lib : ItpLib K) (I : SolverI K S)
    {setReg : S → Point K → S × Except Err Unit} {cfg : S → C} (hO : Overwrites setReg cfg) (M1 : PModel K S)
    (hint : M1.intrusive = false) (hord : ∀ s ∈ M1.slots, s.infer = true → s.op.Ordered) :
    (pSelI lib I setReg).Steady M1 (fun N => N.Alike cfg M1) := by
  have key : ∀ N p, N.Alike cfg M1 →
      ((pSelI lib I setReg).update N p).2 = ((pSelI lib I setReg).update M1 p).2 ∧
      (((pSelI lib I setReg).update N p).2 = .ok () →
        ((pSelI lib I setReg).update N p).1 = ((pSelI lib I setReg).update M1 p).1) ∧
      ((pSelI lib I setReg).update N p).1.Alike cfg M1 := by
    intro N p h
    have hsol := h.solver
    simp only [SelI.update, pSelI, PModel.assignReg]
    cases hN : N.solver with
    | none =>
      cases hM : M1.solver with
      | some t => simp [hM, hN] at hsol
      | none => exact ⟨rfl, fun h => by (cases h), h⟩
    | some s =>
      cases hM : M1.solver with
      | none => simp [hM, hN] at hsol
      | some t =>
        have hst : cfg s = cfg t := by simpa [hM, hN] using hsol
        obtain ⟨e1, e2⟩ := hO.same s t p hst
        have k1 := hO.keep s p
        have k2 := hO.keep t p
        rcases hs : setReg s p with ⟨s', x⟩
        rcases ht : setReg t p with ⟨t', y⟩
        rw [hs, ht] at e1 e2
        rw [hs] at k1
        rw [ht] at k2
        simp only at e1 e2 k1 k2
        subst e1
        simp only [hs, ht]
        cases x with
        | error e =>
          refine ⟨rfl, fun h => by (cases h), h.slots, h.ordered, h.rest, ?_⟩
          simp only [Option.map_some, k1, hM, hst]
        | ok _ =>
          have := e2 rfl
          subst this
          have hr : { N with slots := M1.slots, solver := M1.solver } = M1 := h.rest
          have ha : ({ N with solver := some s' } : PModel K S).Alike cfg { M1 with solver := some s' } :=
            ⟨h.slots, h.ordered, congrArg (fun Y : PModel K S => { Y with solver := some s' }) hr, rfl⟩
          obtain ⟨r1, r2, r3⟩ := prefit_alike lib I ha hord hint rfl rfl
          refine ⟨r1, r2, r3.slots, r3.ordered, ?_, ?_⟩
          · have := congrArg (fun Y : PModel K S => { Y with solver := M1.solver }) r3.rest
            exact this
          · rw [r3.solver, hM]
            simp only [Option.map_some, k2]
  exact ⟨⟨rfl, hord, rfl, rfl⟩, fun N p h => (key N p h).2.2, fun N p h => ⟨(key N p h).1, (key N p h).2.1⟩⟩

/-! ### Interpolatory models -/

/-- The operator after `set_training_parameters(ps)`, without its entries. -/
def Interp.bareAt [LinearOrder K] (ps : List (Par K)) (t : Interp K) : Interp K :=
  match PArr.ofPars ps with
  | .error _ => t.clear
  | .ok P => ({ t.clear with params := some P, p := some P.dim } : Interp K).bare

/-- A class of interpolators is given, or the parameters `ps` are vectors, or they are in increasing order. -/
def Interp.OrderedAt [LinearOrder K] (ps : List (Par K)) (t : Interp K) : Prop :=
  t.cls = none → ∀ xs, PArr.ofPars ps = .ok (.one xs) → xs.Pairwise (· ≤ ·)

def POp.bareAt [LinearOrder K] (ps : List (Par K)) : POp K → POp K
  | .itp t => .itp (t.bareAt ps)
  | o => o

def POp.OrderedAt [LinearOrder K] (ps : List (Par K)) : POp K → Prop
  | .itp t => t.OrderedAt ps
  | _ => True

theorem Interp.bareAt_eq [LinearOrder K] {ps : List (Par K)} {P : PArr K} (h : PArr.ofPars ps = .ok P) (t : Interp K)
    (h1 : t.params = some P) (h2 : t.p = some P.dim) : t.bareAt ps = t.bare := by
  obtain ⟨kind, params, p, ents, cls, itp⟩ := t
  simp only at h1 h2
  subst h1 h2
  simp only [Interp.bareAt, h]
  rfl

theorem reinterpolate_bare [AddMonoid K] [LinearOrder K] (lib : ItpLib K) (ps : List (Par K)) (Ns : List (Model K S))
    (ell : Nat) (o o' : POp K) (h : o.bareAt ps = o'.bareAt ps) (ho : o.OrderedAt ps) (ho' : o'.OrderedAt ps) :
    (reinterpolate lib ps Ns ell o).2 = (reinterpolate lib ps Ns ell o').2 ∧
    ((reinterpolate lib ps Ns ell o).2 = .ok () →
      (reinterpolate lib ps Ns ell o).1 = (reinterpolate lib ps Ns ell o').1) ∧
    (reinterpolate lib ps Ns ell o).1.bareAt ps = o.bareAt ps ∧ (reinterpolate lib ps Ns ell o).1.OrderedAt ps := by
  cases o with
  | np a => cases o' <;> cases h; exact ⟨rfl, fun h => by (cases h), rfl, trivial⟩
  | aff a => cases o' <;> cases h; exact ⟨rfl, fun h => by (cases h), rfl, trivial⟩
  | itp t =>
    cases o' with
    | np b => cases h
    | aff b => cases h
    | itp u =>
      have h : t.bareAt ps = u.bareAt ps := POp.itp.inj h
      have ho : t.OrderedAt ps := ho
      have ho' : u.OrderedAt ps := ho'
      cases hP : PArr.ofPars ps with
      | error e =>
        have ht : t.clear.setParams ps = .error e := by simp [Interp.setParams, Interp.clear, hP]
        have hu : u.clear.setParams ps = .error e := by simp [Interp.setParams, Interp.clear, hP]
        simp only [reinterpolate, ht, hu]
        refine ⟨trivial, fun h => by (cases h), ?_, ?_⟩
        · simp only [POp.bareAt, Interp.bareAt, hP]; rfl
        · intro hc xs hx
          rw [hP] at hx
          cases hx
      | ok P =>
        obtain ⟨T, hT⟩ : ∃ T : Interp K, T = { t.clear with params := some P, p := some P.dim } := ⟨_, rfl⟩
        obtain ⟨U, hU⟩ : ∃ U : Interp K, U = { u.clear with params := some P, p := some P.dim } := ⟨_, rfl⟩
        have ht : t.clear.setParams ps = .ok T := by simp [Interp.setParams, Interp.clear, hP, hT]
        have hu : u.clear.setParams ps = .ok U := by simp [Interp.setParams, Interp.clear, hP, hU]
        have hb : T.bare = U.bare := by simpa only [Interp.bareAt, hP, ← hT, ← hU] using h
        have hbt : t.bareAt ps = T.bare := by simp only [Interp.bareAt, hP, ← hT]
        have hOT : T.Ordered := by
          intro hc xs hx
          rw [hT] at hc hx
          refine ho hc xs ?_
          rw [hP]
          exact congrArg Except.ok (Option.some.inj hx)
        have hOU : U.Ordered := by
          intro hc xs hx
          rw [hU] at hc hx
          refine ho' hc xs ?_
          rw [hP]
          exact congrArg Except.ok (Option.some.inj hx)
        simp only [reinterpolate, ht, hu]
        cases hE : subEntries ell Ns with
        | error e =>
          refine ⟨rfl, fun h => by (cases h), ?_, ?_⟩
          · simp only [POp.bareAt, POp.itp.injEq]
            rw [hbt, Interp.bareAt_eq hP T (by rw [hT]) (by rw [hT])]
          · intro hc xs hx
            refine hOT hc xs ?_
            rw [hP] at hx
            cases hx
            rw [hT]
        | ok As =>
          obtain ⟨e1, e2, e3, e4⟩ := setEntries_bare lib T U hb hOT hOU (.list As)
          have hp1 : (T.setEntries lib (.list As)).1.params = some P := by
            have : (T.setEntries lib (.list As)).1.params = T.params := (congrArg Interp.params e3 :)
            rw [this, hT]
          have hp2 : (T.setEntries lib (.list As)).1.p = some P.dim := by
            have : (T.setEntries lib (.list As)).1.p = T.p := (congrArg Interp.p e3 :)
            rw [this, hT]
          refine ⟨e1, fun h => congrArg POp.itp (e2 h), ?_, ?_⟩
          · simp only [POp.bareAt, POp.itp.injEq]
            rw [hbt, Interp.bareAt_eq hP _ hp1 hp2, e3]
          · intro hc xs hx
            refine e4 hc xs ?_
            rw [hP] at hx
            cases hx
            exact hp1

/-- Slots without the entries of their operators. -/
def PSlot.bareAt [LinearOrder K] (ps : List (Par K)) (s : PSlot K) : PSlot K := { s with op := s.op.bareAt ps }

theorem reinterpolateAll_bare [AddMonoid K] [LinearOrder K] (lib : ItpLib K) (ps : List (Par K))
    (Ns : List (Model K S)) : ∀ (ss tt : List (PSlot K)) (ell : Nat),
    ss.map (PSlot.bareAt ps) = tt.map (PSlot.bareAt ps) →
    (∀ s ∈ ss, s.op.OrderedAt ps) → (∀ s ∈ tt, s.op.OrderedAt ps) →
    (reinterpolateAll lib ps Ns ell ss).2 = (reinterpolateAll lib ps Ns ell tt).2 ∧
    ((reinterpolateAll lib ps Ns ell ss).2 = .ok () →
      (reinterpolateAll lib ps Ns ell ss).1 = (reinterpolateAll lib ps Ns ell tt).1) ∧
    (reinterpolateAll lib ps Ns ell ss).1.map (PSlot.bareAt ps) = ss.map (PSlot.bareAt ps) ∧
    (∀ s ∈ (reinterpolateAll lib ps Ns ell ss).1, s.op.OrderedAt ps) := by
  intro ss
  induction ss with
  | nil =>
    intro tt ell h _ _
    cases tt with
    | nil => simp [reinterpolateAll]
    | cons t tt => simp at h
  | cons s ss ih =>
    intro tt ell h hs ht
    cases tt with
    | nil => simp at h
    | cons t tt =>
      simp only [map_cons, cons.injEq, PSlot.bareAt, PSlot.mk.injEq] at h
      obtain ⟨⟨h1, hi⟩, h2⟩ := h
      have hs' := fun x hx => hs x (mem_cons_of_mem _ hx)
      have ht' := fun x hx => ht x (mem_cons_of_mem _ hx)
      obtain ⟨f1, f2, f3, f4⟩ := reinterpolate_bare lib ps Ns ell s.op t.op h1 (hs s mem_cons_self)
        (ht t mem_cons_self)
      obtain ⟨e1, e2, e3, e4⟩ := ih tt (ell + 1) h2 hs' ht'
      simp only [reinterpolateAll]
      rcases hx : reinterpolate lib ps Ns ell s.op with ⟨o, x⟩
      rcases hy : reinterpolate lib ps Ns ell t.op with ⟨o', y⟩
      rw [hx, hy] at f1 f2
      rw [hx] at f3 f4
      simp only at f1 f2 f3 f4
      subst f1
      cases x with
      | error e =>
        refine ⟨rfl, fun h => by (cases h), ?_, ?_⟩
        · simp only [map_cons, PSlot.bareAt, f3]
        · intro x hx
          rcases mem_cons.1 hx with rfl | hx
          · exact f4
          · exact hs' x hx
      | ok _ =>
        refine ⟨e1, fun h => ?_, ?_, ?_⟩
        · have h : (reinterpolateAll lib ps Ns (ell + 1) ss).2 = .ok () := h
          simp only [f2 rfl, e2 h, hi]
        · simp only [map_cons, e3]
          simp only [PSlot.bareAt, f3]
        · intro x hx
          rcases mem_cons.1 hx with rfl | hx
          · exact f4
          · exact e4 x hx

theorem assignSubs_alike {setReg : S → Point K → S × Except Err Unit} {cfg : S → C} (hO : Overwrites setReg cfg)
    (p : Point K) {Ms Ns : List (Model K S)} (h : Forall₂ (Model.Alike cfg) Ms Ns) :
    (assignSubs setReg p Ms).2 = (assignSubs setReg p Ns).2 ∧
    ((assignSubs setReg p Ms).2 = .ok () → Forall₂ (fun M N => M.Alike cfg N ∧ ∃ s, M.solver = some s ∧
      N.solver = some s) (assignSubs setReg p Ms).1 (assignSubs setReg p Ns).1) ∧
    Forall₂ (Model.Alike cfg) (assignSubs setReg p Ms).1 Ns := by
  induction h with
  | nil => exact ⟨rfl, fun _ => Forall₂.nil, Forall₂.nil⟩
  | @cons M N Ms Ns h1 h2 ih =>
    obtain ⟨i1, i2, i3⟩ := ih
    have hsol := h1.solver
    cases hM : M.solver with
    | none =>
      cases hN : N.solver with
      | some t => simp [hM, hN] at hsol
      | none =>
        simp only [assignSubs, hM, hN]
        exact ⟨trivial, fun h => by (cases h), Forall₂.cons h1 h2⟩
    | some s =>
      cases hN : N.solver with
      | none => simp [hM, hN] at hsol
      | some t =>
        have hst : cfg s = cfg t := by simpa [hM, hN] using hsol
        obtain ⟨e1, e2⟩ := hO.same s t p hst
        have k1 := hO.keep s p
        rcases hs : setReg s p with ⟨s', x⟩
        rcases ht : setReg t p with ⟨t', y⟩
        rw [hs, ht] at e1 e2
        rw [hs] at k1
        simp only at e1 e2 k1
        subst e1
        have ha : ({ M with solver := some s' } : Model K S).Alike cfg N :=
          ⟨h1.slots, h1.same, h1.inputs, h1.r, h1.m, h1.intrusive, by simp [hN, k1, hst]⟩
        simp only [assignSubs, hM, hN, hs, ht]
        cases x with
        | error e => exact ⟨rfl, fun h => by (cases h), Forall₂.cons ha h2⟩
        | ok _ =>
          have := e2 rfl
          subst this
          exact ⟨i1, fun h => Forall₂.cons ⟨⟨h1.slots, h1.same, h1.inputs, h1.r, h1.m, h1.intrusive, rfl⟩, s', rfl, rfl⟩
            (i2 h), Forall₂.cons ha i3⟩

theorem refitSubs_alike [AddMonoid K] (I : SolverI K S) {cfg : S → C} {Ms Ns : List (Model K S)}
    (h : Forall₂ (fun M N => M.Alike cfg N ∧ ∃ s, M.solver = some s ∧ N.solver = some s) Ms Ns) :
    (refitSubs I Ms).2 = (refitSubs I Ns).2 ∧ ((refitSubs I Ms).2 = .ok () → (refitSubs I Ms).1 = (refitSubs I Ns).1) ∧
    Forall₂ (Model.Alike cfg) (refitSubs I Ms).1 Ms := by
  induction h with
  | nil => exact ⟨rfl, fun _ => rfl, Forall₂.nil⟩
  | @cons M N Ms Ns h1 h2 ih =>
    obtain ⟨i1, i2, i3⟩ := ih
    obtain ⟨h1, s, hs1, hs2⟩ := h1
    obtain ⟨r1, r2, r3⟩ := refit_alike I h1 hs1 hs2
    have hrefl : ∀ l : List (Model K S), Forall₂ (Model.Alike cfg) l l := fun l =>
      forall₂_same.2 fun x _ => Model.Alike.refl cfg x
    simp only [refitSubs]
    rcases hx : M.refit I with ⟨M', x⟩
    rcases hy : N.refit I with ⟨N', y⟩
    rw [hx, hy] at r1 r2
    rw [hx] at r3
    simp only at r1 r2 r3
    subst r1
    cases x with
    | error e => exact ⟨rfl, fun h => by (cases h), Forall₂.cons r3 (hrefl _)⟩
    | ok _ =>
      refine ⟨i1, fun h => ?_, Forall₂.cons r3 i3⟩
      have h : (refitSubs I Ms).2 = .ok () := h
      simp only [r2 rfl, i2 h]

theorem forall₂_alike_trans {cfg : S → C} {As Bs Cs : List (Model K S)} (h : Forall₂ (Model.Alike cfg) As Bs)
    (h' : Forall₂ (Model.Alike cfg) Bs Cs) : Forall₂ (Model.Alike cfg) As Cs := by
  induction h generalizing Cs with
  | nil => cases h'; exact Forall₂.nil
  | cons a b ih => cases h' with | cons c d => exact Forall₂.cons (a.trans c) (ih d)

/-- Two interpolatory models that differ at most in the learned entries and in the regularization of the submodels. -/
structure IModel.Alike [LinearOrder K] (cfg : S → C) (M N : IModel K S) : Prop where
  slots : M.base.slots.map (PSlot.bareAt N.tparams) = N.base.slots.map (PSlot.bareAt N.tparams)
  ordered : ∀ s ∈ M.base.slots, s.op.OrderedAt N.tparams
  rest : { M.base with slots := N.base.slots } = N.base
  subs : ∃ Ms Ns, M.subs = some Ms ∧ N.subs = some Ns ∧ Forall₂ (Model.Alike cfg) Ms Ns
  tparams : M.tparams = N.tparams

theorem iSelI_steady [CommRing K] [LinearOrder K] (lib : ItpLib K) (plain : S) (l2 : Int → S) (I : SolverI K S)
    {setReg : S → Point K → S × Except Err Unit} {cfg : S → C} (hO : Overwrites setReg cfg) (M1 : IModel K S)
    (hsub : M1.subs.isSome = true) (hord : ∀ s ∈ M1.base.slots, s.op.OrderedAt M1.tparams) :
    (iSelI lib plain l2 I setReg).Steady M1 (fun N => N.Alike cfg M1) := by
  have hrefl : ∀ l : List (Model K S), Forall₂ (Model.Alike cfg) l l := fun l =>
    forall₂_same.2 fun x _ => Model.Alike.refl cfg x
  have key : ∀ N p, N.Alike cfg M1 →
      ((iSelI lib plain l2 I setReg).update N p).2 = ((iSelI lib plain l2 I setReg).update M1 p).2 ∧
      (((iSelI lib plain l2 I setReg).update N p).2 = .ok () →
        ((iSelI lib plain l2 I setReg).update N p).1 = ((iSelI lib plain l2 I setReg).update M1 p).1) ∧
      ((iSelI lib plain l2 I setReg).update N p).1.Alike cfg M1 := by
    intro N p h
    obtain ⟨h1, h2, h3, ⟨Ns, Ms, hN, hM, h4⟩, h5⟩ := h
    obtain ⟨B, os, tp⟩ := N
    obtain ⟨B', os', tp'⟩ := M1
    simp only at h1 h2 h3 hN hM h5 hord
    subst hN hM h5
    obtain ⟨a1, a2, a3⟩ := assignSubs_alike hO p h4
    simp only [SelI.update, iSelI, IModel.assignReg]
    rcases hx : assignSubs setReg p Ns with ⟨Ns1, x⟩
    rcases hy : assignSubs setReg p Ms with ⟨Ms1, y⟩
    rw [hx, hy] at a1 a2
    rw [hx] at a3
    simp only at a1 a2 a3
    subst a1
    cases x with
    | error e => exact ⟨rfl, fun h => by (cases h), h1, h2, h3, ⟨_, _, rfl, rfl, a3⟩, rfl⟩
    | ok _ =>
      obtain ⟨b1, b2, b3⟩ := refitSubs_alike I (a2 rfl)
      simp only [IModel.refit]
      rcases hx2 : refitSubs I Ns1 with ⟨Ns2, x⟩
      rcases hy2 : refitSubs I Ms1 with ⟨Ms2, y⟩
      rw [hx2, hy2] at b1 b2
      rw [hx2] at b3
      simp only at b1 b2 b3
      subst b1
      have b4 := forall₂_alike_trans b3 a3
      cases x with
      | error e => exact ⟨rfl, fun h => by (cases h), h1, h2, h3, ⟨_, _, rfl, rfl, b4⟩, rfl⟩
      | ok _ =>
        have := b2 rfl
        subst this
        obtain ⟨c1, c2, c3, c4⟩ := reinterpolateAll_bare lib tp Ns2 B.slots B'.slots 0 h1 h2 hord
        refine ⟨c1, fun h => ?_, c3.trans h1, c4, h3, ⟨_, _, rfl, rfl, b4⟩, rfl⟩
        have h : (reinterpolateAll lib tp Ns2 0 B.slots).2 = .ok () := h
        have hB := congrArg (fun Y : PModel K S => { Y with slots := (reinterpolateAll lib tp Ns2 0 B'.slots).1 }) h3
        simp only at hB
        simp only [c2 h, hB]
  obtain ⟨Ns, hNs⟩ := Option.isSome_iff_exists.1 hsub
  exact ⟨⟨rfl, hord, rfl, ⟨Ns, Ns, hNs, hNs, hrefl _⟩, rfl⟩, fun N p h => (key N p h).2.2,
    fun N p h => ⟨(key N p h).1, (key N p h).2.1⟩⟩

end Opinf
