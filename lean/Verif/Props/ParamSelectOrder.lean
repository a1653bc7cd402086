import Verif.Props.ParamSelect

/-!
# C88: selection with training parameters that are not in increasing order
-/

namespace Opinf

open List

variable {K T B S C X : Type}

/-! ### A mark left by every successful evaluation -/

theorem Val.lt_ne_inf [LT K] [DecidableLT K] {v u : Val K} (h : v.lt u = true) : v ≠ .inf := by
  rintro rfl
  cases u <;> cases h

theorem gridLoop_mark [LinearOrder K] {σ : Type} {F : Point K → σ → σ × Except Err (Val K)} {Inv P : σ → Prop}
    (hI : ∀ c s, Inv s → Inv (F c s).1) (hP : ∀ c s, Inv s → P s → P (F c s).1)
    (hv : ∀ c s v, Inv s → (F c s).2 = .ok v → v ≠ .inf → P (F c s).1) :
    ∀ (cs : List (Point K)) (i : Nat) (b : Val K × Option Nat) (s s' : σ) (v : Val K) (j : Nat), Inv s →
      (b.2 ≠ none → P s) → gridLoop F i cs b s = (s', .ok (v, some j)) → Inv s' ∧ P s' := by
  intro cs
  induction cs with
  | nil =>
    intro i b s s' v j hs hb h
    simp only [gridLoop, Prod.mk.injEq, Except.ok.injEq] at h
    obtain ⟨rfl, rfl⟩ := h
    exact ⟨hs, hb (by simp)⟩
  | cons c cs ih =>
    intro i b s s' v j hs hb h
    simp only [gridLoop] at h
    have h1 := hI c s hs
    have h2 := hP c s hs
    have h3 := hv c s
    rcases hx : F c s with ⟨s1, e | u⟩
    · rw [hx] at h; cases h
    · rw [hx] at h h1 h2 h3
      simp only at h h1 h2 h3
      refine ih _ _ _ _ _ _ h1 ?_ h
      intro hb'
      split at hb'
      · rename_i hlt
        exact h3 u hs rfl (Val.lt_ne_inf hlt)
      · exact h2 (hb hb')

theorem run_keeps {σ : Type} {F : Point K → σ → σ × Except Err (Val K)} {Inv : σ → Prop}
    (hI : ∀ c s, Inv s → Inv (F c s).1) : ∀ (o : Optim K) (s : σ), Inv s → Inv (o.run F s).1 := by
  intro o
  induction o with
  | done r => intro s hs; exact hs
  | fail e => intro s hs; exact hs
  | ask x next ih =>
    intro s hs
    have h1 := hI x s hs
    simp only [Optim.run]
    rcases hx : F x s with ⟨s1, e | u⟩
    · rw [hx] at h1; exact h1
    · rw [hx] at h1; exact ih u s1 h1

/-- If every evaluation with a finite value leaves a mark, which no evaluation removes, then it is there after a
successful search. -/
theorem gridsearch_mark [Field K] [LinearOrder K] {σ : Type} {F : Point K → σ → σ × Except Err (Val K)} {Inv P : σ → Prop}
    (hI : ∀ c s, Inv s → Inv (F c s).1) (hP : ∀ c s, Inv s → P s → P (F c s).1)
    (hv : ∀ c s v, Inv s → (F c s).2 = .ok v → v ≠ .inf → P (F c s).1) (pow10 : Point K → Point K) (big : K)
    (optimiser : Start K → Optim K) (c : Cands K) (only : Bool) (s s' : σ) (w : Point K) (hs : Inv s)
    (h : gridsearch pow10 big optimiser F c only s = (s', .ok w)) : Inv s' ∧ P s' := by
  simp only [gridsearch] at h
  cases hc : c.process with
  | error e => rw [hc] at h; cases h
  | ok g =>
    rw [hc] at h
    simp only at h
    rcases hl : gridLoop F 0 g.points (.inf, none) s with ⟨s1, e | ⟨v, i⟩⟩
    · rw [hl] at h; cases h
    · rw [hl] at h
      cases i with
      | none => cases h
      | some i =>
        have h1 := gridLoop_mark hI hP hv g.points 0 (.inf, none) s s1 v i hs (by simp) hl
        simp only at h
        cases only with
        | true =>
          simp only [if_true, Prod.mk.injEq] at h
          rw [← h.1]
          exact h1
        | false =>
          simp only [Bool.false_eq_true, if_false] at h
          have h2 := run_keeps (F := logFunc pow10 big F) (Inv := fun s => Inv s ∧ P s) (by
            intro x s hs
            have k1 := hI (pow10 x) s hs.1
            have k2 := hP (pow10 x) s hs.1 hs.2
            simp only [logFunc]
            rcases hx : F (pow10 x) s with ⟨s2, e | u⟩
            · rw [hx] at k1 k2; exact ⟨k1, k2⟩
            · rw [hx] at k1 k2; exact ⟨k1, k2⟩) (optimiser (g.start i)) s1 h1
          rcases hr : (optimiser (g.start i)).run (logFunc pow10 big F) s1 with ⟨s2, e | r⟩
          · rw [hr] at h; cases h
          · rw [hr] at h h2
            simp only [Prod.mk.injEq] at h
            rw [← h.1]
            exact h2

/-- If every successful update leaves a mark, which no update removes and with which all updates fail, no selection
succeeds. -/
theorem select_never [Field K] [LinearOrder K] {J : SelI K X} {Inv P : X → Prop}
    (hI : ∀ p M, Inv M → Inv (J.update M p).1) (hP : ∀ p M, Inv M → P M → P (J.update M p).1)
    (hv : ∀ p M, Inv M → (J.update M p).2 = .ok () → P (J.update M p).1)
    (hno : ∀ p M, Inv M → P M → (J.update M p).2 ≠ .ok ()) (G : Search K)
    (cases : Except Err (List (RegCase K X) × List (TrainCase K X))) (c : Cands K) (only : Bool) (M : X) (hM : Inv M) :
    (J.select G cases c only M).2 ≠ .ok () := by
  intro h
  simp only [SelI.select] at h
  cases hcs : cases with
  | error e => rw [hcs] at h; cases h
  | ok tt =>
    obtain ⟨tests, trains⟩ := tt
    rw [hcs] at h
    simp only at h
    rcases hg : gridsearch G.pow10 G.big G.optimiser (J.trainingError tests trains) c only M with ⟨M2, e | w⟩
    · rw [hg] at h; cases h
    · rw [hg] at h
      simp only at h
      have hst : ∀ p N, (J.trainingError tests trains p N).1 = (J.update N p).1 := by
        intro p N
        simp only [SelI.trainingError]
        rcases J.update N p with ⟨N', e | _⟩ <;> rfl
      obtain ⟨h1, h2⟩ := gridsearch_mark (Inv := Inv) (P := P) (fun p N hN => by rw [hst]; exact hI p N hN)
        (fun p N hN hPN => by rw [hst]; exact hP p N hN hPN)
        (fun p N v hN hvN hne => by
          rw [hst]
          refine hv p N hN ?_
          simp only [SelI.trainingError] at hvN
          rcases hu : J.update N p with ⟨N', e | _⟩
          · rw [hu] at hvN
            simp only [Except.ok.injEq] at hvN
            exact absurd hvN.symm hne
          · rfl) _ _ _ c only M M2 w hM hg
      exact hno w M2 h1 h2 h

/-! ### Interpolated operators with unordered parameters -/

/-- An interpolated operator with the scalar training parameters `xs`; without entries so far (`spent = false`) or
with the default class of interpolators stored. -/
def Unordered (xs : List K) (spent : Bool) (t : Interp K) : Prop :=
  t.params = some (.one xs) ∧ (t.cls = some .cubic ∨ (spent = false ∧ t.cls = none))

theorem Unordered.weaken {xs : List K} {b : Bool} {t : Interp K} (h : Unordered xs b t) : Unordered xs false t := by
  obtain ⟨h1, h2 | ⟨-, h2⟩⟩ := h
  · exact ⟨h1, Or.inl h2⟩
  · exact ⟨h1, Or.inr ⟨rfl, h2⟩⟩

theorem setEntries_unordered [AddMonoid K] [LinearOrder K] {lib : ItpLib K} (hlib : lib.Contract) {xs : List K}
    (hxs : ¬ xs.Pairwise (· < ·)) (t : Interp K) (b : Bool) (h : Unordered xs b t) (e : EntArg K) :
    Unordered xs b (t.setEntries lib e).1 ∧ (b = true → (t.setEntries lib e).2 ≠ .ok ()) ∧
    ((t.setEntries lib e).2 = .ok () → Unordered xs true (t.setEntries lib e).1) := by
  obtain ⟨hp, hc⟩ := h
  obtain ⟨kind, params, p, ents, cls, itp⟩ := t
  simp only at hp hc
  subst hp
  simp only [Interp.setEntries]
  cases parseEntries kind (PArr.one xs).length e with
  | error err => exact ⟨⟨rfl, hc⟩, fun _ h => by (cases h), fun h => by (cases h)⟩
  | ok As =>
    simp only [Interp.setInterpolator]
    rcases hc with rfl | ⟨rfl, rfl⟩
    · simp only [itpData, hlib.cubic_order xs As hxs]
      exact ⟨⟨rfl, Or.inl rfl⟩, fun _ h => by (cases h), fun h => by (cases h)⟩
    · split
      · exact ⟨⟨rfl, Or.inr ⟨rfl, rfl⟩⟩, fun h => by (cases h), fun h => by (cases h)⟩
      · exact ⟨⟨rfl, Or.inl rfl⟩, fun h => by (cases h), fun _ => ⟨rfl, Or.inl rfl⟩⟩

/-- An operator to be learned, of this kind. -/
def PSlot.Unordered (xs : List K) (spent : Bool) (s : PSlot K) : Prop :=
  s.infer = true ∧ ∃ t, s.op = .itp t ∧ Opinf.Unordered xs spent t

theorem pExtract_unordered [AddMonoid K] [LinearOrder K] {lib : ItpLib K} (hlib : lib.Contract) {xs : List K}
    (hxs : ¬ xs.Pairwise (· < ·)) (n r m : Nat) (O : Mat K) (b : Bool) : ∀ (ss : List (PSlot K)) (i : Nat),
    (∃ s ∈ ss, s.Unordered xs b) →
    (∃ s ∈ (pExtract lib n r m O i ss).1, s.Unordered xs b) ∧
    (b = true → (pExtract lib n r m O i ss).2 ≠ .ok ()) ∧
    ((pExtract lib n r m O i ss).2 = .ok () → ∃ s ∈ (pExtract lib n r m O i ss).1, s.Unordered xs true) := by
  intro ss
  induction ss with
  | nil => rintro i ⟨s, hs, -⟩; cases hs
  | cons s ss ih =>
    rintro i ⟨x, hx, hU⟩
    rcases mem_cons.1 hx with rfl | hx
    · obtain ⟨hi, t, ht, hU⟩ := hU
      simp only [pExtract, hi, if_true, ht, POp.setBlock]
      obtain ⟨a1, a2, a3⟩ := setEntries_unordered hlib hxs t b hU (.block (O.colSlice i (i + (POp.itp t).dim n r m)))
      rcases hy : t.setEntries lib (.block (O.colSlice i (i + (POp.itp t).dim n r m))) with ⟨t', e | _⟩
      · rw [hy] at a1
        exact ⟨⟨_, mem_cons_self, rfl, t', rfl, a1⟩, fun _ h => by (cases h), fun h => by (cases h)⟩
      · rw [hy] at a1 a2 a3
        exact ⟨⟨_, mem_cons_self, rfl, t', rfl, a1⟩, fun hb => absurd rfl (a2 hb),
          fun _ => ⟨_, mem_cons_self, rfl, t', rfl, a3 rfl⟩⟩
    · simp only [pExtract]
      split
      · rcases hy : s.op.setBlock lib (O.colSlice i (i + s.op.dim n r m)) with ⟨o, e | _⟩
        · exact ⟨⟨x, mem_cons_of_mem _ hx, hU⟩, fun _ h => by (cases h), fun h => by (cases h)⟩
        · obtain ⟨⟨y, hy1, hy2⟩, b1, b2⟩ := ih (i + s.op.dim n r m) ⟨x, hx, hU⟩
          refine ⟨⟨y, mem_cons_of_mem _ hy1, hy2⟩, b1, fun h => ?_⟩
          obtain ⟨z, hz1, hz2⟩ := b2 h
          exact ⟨z, mem_cons_of_mem _ hz1, hz2⟩
      · obtain ⟨⟨y, hy1, hy2⟩, b1, b2⟩ := ih i ⟨x, hx, hU⟩
        refine ⟨⟨y, mem_cons_of_mem _ hy1, hy2⟩, b1, fun h => ?_⟩
        obtain ⟨z, hz1, hz2⟩ := b2 h
        exact ⟨z, mem_cons_of_mem _ hz1, hz2⟩

theorem pupdate_unordered [CommRing K] [LinearOrder K] {lib : ItpLib K} (hlib : lib.Contract) (I : SolverI K S)
    (setReg : S → Point K → S × Except Err Unit) {xs : List K} (hxs : ¬ xs.Pairwise (· < ·)) (b : Bool)
    (M : PModel K S) (hint : M.intrusive = false) (h : ∃ s ∈ M.slots, s.Unordered xs b) (p : Point K) :
    ((pSelI lib I setReg).update M p).1.intrusive = false ∧
    (∃ s ∈ ((pSelI lib I setReg).update M p).1.slots, s.Unordered xs b) ∧
    (b = true → ((pSelI lib I setReg).update M p).2 ≠ .ok ()) ∧
    (((pSelI lib I setReg).update M p).2 = .ok () →
      ∃ s ∈ ((pSelI lib I setReg).update M p).1.slots, s.Unordered xs true) := by
  simp only [SelI.update, pSelI, PModel.assignReg]
  cases M.solver with
  | none => exact ⟨hint, h, fun _ h => by (cases h), fun h => by (cases h)⟩
  | some s =>
    simp only
    rcases setReg s p with ⟨s', e | _⟩
    · exact ⟨hint, h, fun _ h => by (cases h), fun h => by (cases h)⟩
    · simp only [PModel.refit, hint, Bool.false_eq_true, if_false]
      cases I.solve s' with
      | error e => exact ⟨rfl, h, fun _ h => by (cases h), fun h => by (cases h)⟩
      | ok O =>
        cases M.s with
        | none => exact ⟨rfl, h, fun _ h => by (cases h), fun h => by (cases h)⟩
        | some n => exact ⟨rfl, pExtract_unordered hlib hxs n _ _ O b M.slots 0 h⟩

/-! ### C88 -/

/-- **C88 is false of the code for training parameters in another order**: if some operator to be learned is interpolated
with the default class of interpolators and the scalar training parameters are not increasing, the selection never
succeeds, whatever the candidates are, although `fit` with any one of them may succeed. -/
theorem C88_unordered [Field K] [LinearOrder K] {lib : ItpLib K} (hlib : lib.Contract) (I : SolverI K S)
    (setReg : S → Point K → S × Except Err Unit) (G : Search K)
    (cases : Rom K T B → TrainData K → Except Err (List (RegCase K (PModel K S)) × List (TrainCase K (PModel K S))))
    (c : Cands K) (only : Bool) (R : PRom K T B (PModel K S)) (hint : R.model.intrusive = false)
    (hop : ∃ s ∈ R.model.slots, s.infer = true ∧ ∃ t, s.op = .itp t ∧ t.cls = none) (ps : List (Par K)) (xs : List K)
    (hps : PArr.ofPars ps = .ok (.one xs)) (hxs : ¬ xs.Pairwise (· < ·)) (qs : List (Snap K))
    (zs us : Option (List (Snap K))) (fitT fitB : Bool) :
    (R.selectLists (pModelI lib I) (pSelI lib I setReg) G cases c only ps qs zs us fitT fitB).2 ≠ .ok () := by
  intro h
  obtain ⟨-, R1, d, M1, -, -, hf, hsel⟩ := pselectLists_ok _ _ G cases c only R
    (R.selectLists (pModelI lib I) (pSelI lib I setReg) G cases c only ps qs zs us fitT fitB).1 ps qs zs us fitT fitB
    (Prod.ext rfl h)
  have hf' : R.model.fitSolver lib I ps (d.states.map Snap.toArg) (d.lhs.map Snap.toArg)
      (d.inputs.map fun us => us.map Snap.toArg) = (M1, .ok ()) := hf
  have hM1 : M1.intrusive = false ∧ ∃ s ∈ M1.slots, s.Unordered xs false := by
    obtain ⟨Y, data, Z, slots, D, s0, t0, hp, hsl, hD, hs0, hfit, rfl⟩ := pfitSolver_ok hf'
    obtain ⟨d', U, -, hY, -, -, hint', -⟩ := process_inv lib _ Y ps _ _ _ data Z hp
    refine ⟨hint'.trans hint, ?_⟩
    obtain ⟨s, hs, hi, t, ht, hc⟩ := hop
    obtain ⟨t1, e1, e2⟩ := prepSlot_itp d' s t ht
    have hmem : prepSlot d' s ∈ Y.slots := by rw [hY]; exact mem_map_of_mem hs
    obtain ⟨j, hj⟩ := List.getElem?_of_mem hmem
    have hall := setAllParams_ok ps _ _ hsl
    have hlt : j < slots.length := by
      rw [← hall.length_eq]
      exact (List.getElem?_eq_some_iff.1 hj).1
    have hj' : slots[j]? = some slots[j] := List.getElem?_eq_getElem hlt
    obtain ⟨g1, g2, -⟩ := forall₂_getElem? hall (j := j) (ha := hj) (hb := hj')
    obtain ⟨t2, e3, e4⟩ := g2 t1 e1
    refine ⟨slots[j], getElem_mem hlt, by rw [g1]; exact hi, t2, e4, ?_⟩
    simp only [Interp.setParams, hps] at e3
    split at e3
    · cases e3
    · simp only [Except.ok.injEq] at e3
      subst e3
      exact ⟨rfl, Or.inr ⟨rfl, e2.trans hc⟩⟩
  refine select_never (J := pSelI lib I setReg) (Inv := fun M => M.intrusive = false ∧ ∃ s ∈ M.slots, s.Unordered xs false)
    (P := fun M => ∃ s ∈ M.slots, s.Unordered xs true) ?_ ?_ ?_ ?_ G (cases R1.rom d) c only M1 hM1 (by rw [hsel])
  · intro p M hM
    obtain ⟨k1, k2, -⟩ := pupdate_unordered hlib I setReg hxs false M hM.1 hM.2 p
    exact ⟨k1, k2⟩
  · intro p M hM hP
    exact (pupdate_unordered hlib I setReg hxs true M hM.1 hP p).2.1
  · intro p M hM hok
    exact (pupdate_unordered hlib I setReg hxs false M hM.1 hM.2 p).2.2.2 hok
  · intro p M hM hP
    exact (pupdate_unordered hlib I setReg hxs true M hM.1 hP p).2.2.1 rfl

/-! ### Interpolatory models -/

/-- An operator of an interpolatory model with the default class of interpolators, stored or not. -/
def PSlot.Default (spent : Bool) (s : PSlot K) : Prop :=
  ∃ t, s.op = .itp t ∧ (t.cls = some .cubic ∨ (spent = false ∧ t.cls = none))

theorem reinterpolate_default [AddMonoid K] [LinearOrder K] {lib : ItpLib K} (hlib : lib.Contract) {ps : List (Par K)}
    {xs : List K} (hps : PArr.ofPars ps = .ok (.one xs)) (hxs : ¬ xs.Pairwise (· < ·)) (Ns : List (Model K S)) (ell : Nat)
    (b : Bool) (s : PSlot K) (h : s.Default b) :
    ({ s with op := (reinterpolate lib ps Ns ell s.op).1 } : PSlot K).Default b ∧
    (b = true → (reinterpolate lib ps Ns ell s.op).2 ≠ .ok ()) ∧
    ((reinterpolate lib ps Ns ell s.op).2 = .ok () →
      ({ s with op := (reinterpolate lib ps Ns ell s.op).1 } : PSlot K).Default true) := by
  obtain ⟨t, ht, hc⟩ := h
  obtain ⟨T, hT⟩ : ∃ T : Interp K, T = { t.clear with params := some (.one xs), p := some (PArr.one xs).dim } := ⟨_, rfl⟩
  have hset : t.clear.setParams ps = .ok T := by simp [Interp.setParams, Interp.clear, hps, hT]
  have hU : Unordered xs b T := by rw [hT]; exact ⟨rfl, hc⟩
  simp only [ht, reinterpolate, hset]
  cases subEntries ell Ns with
  | error e => exact ⟨⟨T, rfl, hU.2⟩, fun _ h => by (cases h), fun h => by (cases h)⟩
  | ok As =>
    obtain ⟨a1, a2, a3⟩ := setEntries_unordered hlib hxs T b hU (.list As)
    exact ⟨⟨_, rfl, a1.2⟩, a2, fun h => ⟨_, rfl, (a3 h).2⟩⟩

theorem reinterpolateAll_default [AddMonoid K] [LinearOrder K] {lib : ItpLib K} (hlib : lib.Contract)
    {ps : List (Par K)} {xs : List K} (hps : PArr.ofPars ps = .ok (.one xs)) (hxs : ¬ xs.Pairwise (· < ·))
    (Ns : List (Model K S)) (b : Bool) : ∀ (ss : List (PSlot K)) (ell : Nat), (∃ s ∈ ss, s.Default b) →
    (∃ s ∈ (reinterpolateAll lib ps Ns ell ss).1, s.Default b) ∧
    (b = true → (reinterpolateAll lib ps Ns ell ss).2 ≠ .ok ()) ∧
    ((reinterpolateAll lib ps Ns ell ss).2 = .ok () →
      ∃ s ∈ (reinterpolateAll lib ps Ns ell ss).1, s.Default true) := by
  intro ss
  induction ss with
  | nil => rintro ell ⟨s, hs, -⟩; cases hs
  | cons s ss ih =>
    rintro ell ⟨x, hx, hU⟩
    rcases mem_cons.1 hx with rfl | hx
    · obtain ⟨a1, a2, a3⟩ := reinterpolate_default hlib hps hxs Ns ell b x hU
      simp only [reinterpolateAll]
      rcases hy : reinterpolate lib ps Ns ell x.op with ⟨o, e | _⟩
      · rw [hy] at a1
        exact ⟨⟨_, mem_cons_self, a1⟩, fun _ h => by (cases h), fun h => by (cases h)⟩
      · rw [hy] at a1 a2 a3
        exact ⟨⟨_, mem_cons_self, a1⟩, fun hb => absurd rfl (a2 hb), fun _ => ⟨_, mem_cons_self, a3 rfl⟩⟩
    · simp only [reinterpolateAll]
      rcases hy : reinterpolate lib ps Ns ell s.op with ⟨o, e | _⟩
      · exact ⟨⟨x, mem_cons_of_mem _ hx, hU⟩, fun _ h => by (cases h), fun h => by (cases h)⟩
      · obtain ⟨⟨y, hy1, hy2⟩, b1, b2⟩ := ih (ell + 1) ⟨x, hx, hU⟩
        refine ⟨⟨y, mem_cons_of_mem _ hy1, hy2⟩, b1, fun h => ?_⟩
        obtain ⟨z, hz1, hz2⟩ := b2 h
        exact ⟨z, mem_cons_of_mem _ hz1, hz2⟩

theorem iupdate_default [CommRing K] [LinearOrder K] {lib : ItpLib K} (hlib : lib.Contract) (plain : S) (l2 : Int → S)
    (I : SolverI K S) (setReg : S → Point K → S × Except Err Unit) {ps : List (Par K)} {xs : List K}
    (hps : PArr.ofPars ps = .ok (.one xs)) (hxs : ¬ xs.Pairwise (· < ·)) (b : Bool)
    (M : IModel K S) (htp : M.tparams = ps) (h : ∃ s ∈ M.base.slots, s.Default b) (p : Point K) :
    ((iSelI lib plain l2 I setReg).update M p).1.tparams = ps ∧
    (∃ s ∈ ((iSelI lib plain l2 I setReg).update M p).1.base.slots, s.Default b) ∧
    (b = true → ((iSelI lib plain l2 I setReg).update M p).2 ≠ .ok ()) ∧
    (((iSelI lib plain l2 I setReg).update M p).2 = .ok () →
      ∃ s ∈ ((iSelI lib plain l2 I setReg).update M p).1.base.slots, s.Default true) := by
  obtain ⟨Y, subs, tp⟩ := M
  simp only at htp h
  subst htp
  simp only [SelI.update, iSelI, IModel.assignReg]
  cases subs with
  | none => exact ⟨rfl, h, fun _ h => by (cases h), fun h => by (cases h)⟩
  | some Ns =>
    simp only
    rcases assignSubs setReg p Ns with ⟨Ns1, e | _⟩
    · exact ⟨rfl, h, fun _ h => by (cases h), fun h => by (cases h)⟩
    · simp only [IModel.refit]
      rcases refitSubs I Ns1 with ⟨Ns2, e | _⟩
      · exact ⟨rfl, h, fun _ h => by (cases h), fun h => by (cases h)⟩
      · exact ⟨rfl, reinterpolateAll_default hlib hps hxs Ns2 b Y.slots 0 h⟩

/-- **C88 is false of the code for training parameters in another order**, for interpolatory models. -/
theorem C88_interpolatory_unordered [Field K] [LinearOrder K] {lib : ItpLib K} (hlib : lib.Contract) (plain : S)
    (l2 : Int → S) (I : SolverI K S) (setReg : S → Point K → S × Except Err Unit) (G : Search K)
    (cases : Rom K T B → TrainData K → Except Err (List (RegCase K (IModel K S)) × List (TrainCase K (IModel K S))))
    (c : Cands K) (only : Bool) (R : PRom K T B (IModel K S))
    (hop : ∃ s ∈ R.model.base.slots, ∃ t, s.op = .itp t ∧ t.cls = none) (ps : List (Par K)) (xs : List K)
    (hps : PArr.ofPars ps = .ok (.one xs)) (hxs : ¬ xs.Pairwise (· < ·)) (qs : List (Snap K))
    (zs us : Option (List (Snap K))) (fitT fitB : Bool) :
    (R.selectLists (iModelI lib plain l2 I) (iSelI lib plain l2 I setReg) G cases c only ps qs zs us fitT fitB).2
      ≠ .ok () := by
  intro h
  obtain ⟨-, R1, d, M1, -, -, hf, hsel⟩ := pselectLists_ok _ _ G cases c only R
    (R.selectLists (iModelI lib plain l2 I) (iSelI lib plain l2 I setReg) G cases c only ps qs zs us fitT fitB).1 ps qs
    zs us fitT fitB (Prod.ext rfl h)
  have hf' : R.model.fitSolver lib plain l2 I ps (d.states.map Snap.toArg) (d.lhs.map Snap.toArg)
      (d.inputs.map fun us => us.map Snap.toArg) = (M1, .ok ()) := hf
  have hM1 : M1.tparams = ps ∧ ∃ s ∈ M1.base.slots, s.Default false := by
    obtain ⟨Y, data, Z, s0, Ns, hp, -, -, -, rfl⟩ := ifitSolver_ok hf'
    obtain ⟨d', U, -, hY, -⟩ := process_inv lib _ Y ps _ _ _ data Z hp
    refine ⟨rfl, ?_⟩
    obtain ⟨s, hs, t, ht, hc⟩ := hop
    obtain ⟨t1, e1, e2⟩ := prepSlot_itp d' s t ht
    have hmem : prepSlot d' s ∈ Y.slots := by rw [hY]; exact mem_map_of_mem hs
    exact ⟨_, hmem, t1, e1, Or.inr ⟨rfl, e2.trans hc⟩⟩
  refine select_never (J := iSelI lib plain l2 I setReg)
    (Inv := fun M => M.tparams = ps ∧ ∃ s ∈ M.base.slots, s.Default false)
    (P := fun M => ∃ s ∈ M.base.slots, s.Default true) ?_ ?_ ?_ ?_ G (cases R1.rom d) c only M1 hM1 (by rw [hsel])
  · intro p M hM
    obtain ⟨k1, k2, -⟩ := iupdate_default hlib plain l2 I setReg hps hxs false M hM.1 hM.2 p
    exact ⟨k1, k2⟩
  · intro p M hM hP
    exact (iupdate_default hlib plain l2 I setReg hps hxs true M hM.1 hP p).2.1
  · intro p M hM hok
    exact (iupdate_default hlib plain l2 I setReg hps hxs false M hM.1 hM.2 p).2.2.2 hok
  · intro p M hM hP
    exact (iupdate_default hlib plain l2 I setReg hps hxs true M hM.1 hP p).2.2.1 rfl

/-! ### Predictions do not change the model -/

/-- The parameter dimension of every affine operator is known. -/
def DimsKnown (ss : List (PSlot K)) : Prop := ∀ s ∈ ss, ∀ a, s.op = .aff a → a.p ≠ none

theorem evalOps_pure [Semiring K] (lib : ItpLib K) (mu : Par K) : ∀ ss : List (PSlot K), DimsKnown ss →
    (evalOps lib mu ss).1 = ss := by
  intro ss
  induction ss with
  | nil => intro _; rfl
  | cons s ss ih =>
    intro h
    have h1 : (s.op.evaluate lib mu).1 = s.op := by
      cases ho : s.op with
      | np o => rfl
      | itp t => rfl
      | aff a =>
        have hp := h s mem_cons_self a ho
        have hl : a.learnDim mu = a := by
          rw [Affine.learnDim, if_neg (by simpa using hp)]
        simp only [POp.evaluate, Affine.evaluate, hl]
        cases a.entries with
        | none => rfl
        | some As =>
          simp only
          split <;> rfl
    have h2 := ih fun x hx => h x (mem_cons_of_mem _ hx)
    simp only [evalOps]
    rcases hx : s.op.evaluate lib mu with ⟨o, e | op⟩
    · rw [hx] at h1
      simp only at h1 ⊢
      rw [h1]
    · rw [hx] at h1
      simp only at h1 ⊢
      rcases hy : evalOps lib mu ss with ⟨ss', e | ops⟩
      · rw [hy] at h2
        simp only at h2 ⊢
        rw [h1, h2]
      · rw [hy] at h2
        simp only at h2 ⊢
        rw [h1, h2]

theorem evaluate_pure [Semiring K] (lib : ItpLib K) (M : PModel K S) (h : DimsKnown M.slots) (mu : Par K) :
    (M.evaluate lib mu).1 = M := by
  have h1 := evalOps_pure lib mu M.slots h
  simp only [PModel.evaluate]
  rcases hx : evalOps lib mu M.slots with ⟨ss, e | ops⟩ <;> rw [hx] at h1 <;> simp only at h1 ⊢ <;> rw [h1]

theorem pExtract_dims [AddMonoid K] [LinearOrder K] (lib : ItpLib K) (n r m : Nat) (O : Mat K) :
    ∀ (ss : List (PSlot K)) (i : Nat), DimsKnown ss → DimsKnown (pExtract lib n r m O i ss).1 := by
  intro ss
  induction ss with
  | nil => intro i h; exact h
  | cons s ss ih =>
    intro i h
    have hb : ∀ B a, (s.op.setBlock lib B).1 = .aff a → a.p ≠ none := by
      intro B a ha
      cases ho : s.op with
      | np o =>
        rw [ho] at ha
        simp only [POp.setBlock] at ha
        split at ha <;> cases ha
      | itp t => rw [ho] at ha; cases ha
      | aff c =>
        have hp := h s mem_cons_self c ho
        rw [ho] at ha
        simp only [POp.setBlock] at ha
        split at ha
        · cases ha; exact hp
        · rename_i a' hset
          cases ha
          have : a.p = c.p := by
            simp only [Affine.setEntries] at hset
            revert hset
            repeat' split
            all_goals first
              | (intro hset; cases hset; rfl)
              | (intro hset; cases hset)
          rw [this]; exact hp
    have ht : DimsKnown ss := fun x hx => h x (mem_cons_of_mem _ hx)
    simp only [pExtract]
    split
    · have hb := hb (O.colSlice i (i + s.op.dim n r m))
      rcases hx : s.op.setBlock lib (O.colSlice i (i + s.op.dim n r m)) with ⟨o, e | _⟩
      · rw [hx] at hb
        intro x hx
        rcases mem_cons.1 hx with rfl | hx
        · exact hb
        · exact ht x hx
      · rw [hx] at hb
        intro x hx
        rcases mem_cons.1 hx with rfl | hx
        · exact hb
        · exact ih _ ht x hx
    · intro x hx
      rcases mem_cons.1 hx with rfl | hx
      · exact h x mem_cons_self
      · exact ih _ ht x hx

theorem prefit_dims [CommRing K] [LinearOrder K] (lib : ItpLib K) (I : SolverI K S) (M : PModel K S)
    (h : DimsKnown M.slots) : DimsKnown (M.refit lib I).1.slots := by
  obtain ⟨slots, hi, r, m, intr, solver, p, n⟩ := M
  simp only [PModel.refit]
  cases intr with
  | true => exact h
  | false =>
    simp only [Bool.false_eq_true, if_false]
    cases solver with
    | none => exact h
    | some s =>
      simp only
      cases I.solve s with
      | error e => exact h
      | ok O =>
        cases n with
        | none => exact h
        | some n => exact pExtract_dims lib _ _ _ O slots 0 h

/-- **C88 (predictions).** Once the regression problem is set up, evaluating the model at a parameter value does not
change it, after any number of updates with any regularizations: the test cases and training trajectories of a
selection do not influence the model other than through the selected regularization. -/
theorem C88_predictions [CommRing K] [LinearOrder K] (lib : ItpLib K) (I : SolverI K S)
    (setReg : S → Point K → S × Except Err Unit) (M M1 : PModel K S) (ps : List (Par K)) (states lhs : List (Arg K))
    (inputs : Option (List (Arg K))) (h : M.fitSolver lib I ps states lhs inputs = (M1, .ok ())) (pts : List (Point K))
    (mu : Par K) (q0 : List K) (niters : Int) (us : PredInput K) :
    (PModel.predict lib (pts.foldl (fun N p => ((pSelI lib I setReg).update N p).1) M1) mu q0 niters us).1 =
      pts.foldl (fun N p => ((pSelI lib I setReg).update N p).1) M1 := by
  have h1 : DimsKnown M1.slots := by
    obtain ⟨Y, data, Z, slots, D, s0, t0, hp, hsl, -, -, -, rfl⟩ := pfitSolver_ok h
    obtain ⟨d, U, -, hY, -⟩ := process_inv lib M Y ps states lhs inputs data Z hp
    have hall := setAllParams_ok ps _ _ hsl
    intro x hx a ha
    obtain ⟨y, hy, g1, g2, g3⟩ := forall₂_mem_right hall hx
    have hyn : y.op.interp? = none := by
      cases ho : y.op with
      | itp t =>
        obtain ⟨t', -, e⟩ := g2 t ho
        rw [ha] at e; cases e
      | np o => rfl
      | aff c => rfl
    have hxy := g3 hyn
    subst hxy
    rw [hY] at hy
    obtain ⟨s, -, rfl⟩ := mem_map.1 hy
    simp only [prepSlot] at ha
    cases hs : (if s.infer = true then s.op.clear else s.op) with
    | np o => rw [hs] at ha; cases ha
    | itp t => rw [hs] at ha; cases ha
    | aff c =>
      rw [hs] at ha
      simp only [POp.fill, POp.aff.injEq] at ha
      subst ha
      cases hc : c.p with
      | none => simp
      | some n => simp [hc]
  have h2 : ∀ (pts : List (Point K)) (N : PModel K S), DimsKnown N.slots →
      DimsKnown (pts.foldl (fun N p => ((pSelI lib I setReg).update N p).1) N).slots := by
    intro pts
    induction pts with
    | nil => intro N hN; exact hN
    | cons p pts ih =>
      intro N hN
      refine ih _ ?_
      simp only [SelI.update, pSelI, PModel.assignReg]
      cases hs : N.solver with
      | none => exact hN
      | some s =>
        simp only
        rcases setReg s p with ⟨s', e | _⟩
        · exact hN
        · exact prefit_dims lib I _ hN
  exact evaluate_pure lib _ (h2 pts M1 h1) mu

/-! ### Concrete models -/

/-- `toyLib` meets the contract. -/
theorem toyLib_contract : toyLib.Contract where
  cubic_ok xs As h1 h2 _ := by simp [toyLib, h1, h2]
  cubic_order xs As h := by simp [toyLib, h]
  cubic_few xs As h := by simp [toyLib]; omega
  cubic_node := toy_node _
  linear_node := toy_node _
  cubic_values P As Bs _ := by cases P <;> rfl
  linear_values P As Bs _ := by cases P <;> rfl

/-- A linear operator with the default class of interpolators, to be learned by a new `TikhonovSolver`. -/
def selModel : PModel ℚ (Tik (Mat ℚ) ℚ) :=
  ⟨[⟨.itp ⟨.lin, none, none, none, none, none⟩, true⟩], false, none, some 0, false, some ⟨none, .normal, none, none⟩, none,
    none⟩

/-- A fully discrete reduced-order model without lifter, transformer and basis. -/
def selRom : PRom ℚ Unit Unit (PModel ℚ (Tik (Mat ℚ) ℚ)) := ⟨⟨none, none, none, false⟩, none, selModel⟩

/-- The same with an interpolatory model, whose solver has regularization 0. -/
def selIRom : PRom ℚ Unit Unit (IModel ℚ (Tik (Mat ℚ) ℚ)) :=
  ⟨⟨none, none, none, false⟩, none, ⟨{ selModel with solver := some ⟨some (Mat.diag [0]), .normal, none, none⟩ }, none, []⟩⟩

/-- Trajectories of `q ↦ 3 q` and `q ↦ 2 q`. -/
def selStates : List (Snap ℚ) := [.mat 3 [[1, 3, 9]], .mat 3 [[1, 2, 4]]]

def selBase : Tik (Mat ℚ) ℚ := ⟨none, .normal, none, none⟩

def selP : ParI ℚ (PModel ℚ (Tik (Mat ℚ) ℚ)) := pModelI toyLib RegEx.tik

def selIP : ParI ℚ (IModel ℚ (Tik (Mat ℚ) ℚ)) := iModelI toyLib selBase (fun _ => selBase) RegEx.tik

def selJ : SelI ℚ (PModel ℚ (Tik (Mat ℚ) ℚ)) := pSelI toyLib RegEx.tik (tikSetReg (RegEx.factory 2))

def selIJ : SelI ℚ (IModel ℚ (Tik (Mat ℚ) ℚ)) :=
  iSelI toyLib selBase (fun _ => selBase) RegEx.tik (tikSetReg (RegEx.factory 1))

/-- Selection with a test case from 1 over three iterations at the first parameter. -/
def selRun (ps : List (Par ℚ)) (cands : List ℚ) : PRom ℚ Unit Unit (PModel ℚ (Tik (Mat ℚ) ℚ)) × Except Err Unit :=
  selRom.selectDiscrete selP selJ (pEvalAt toyLib) RegEx.search RegEx.root (.nums cands) ps selStates none true true true 1 100
    [⟨.scalar 1, ⟨[1], 3, .none, some 50⟩⟩]

def selIRun (ps : List (Par ℚ)) (cands : List ℚ) : PRom ℚ Unit Unit (IModel ℚ (Tik (Mat ℚ) ℚ)) × Except Err Unit :=
  selIRom.selectDiscrete selIP selIJ (iEvalAt toyLib) RegEx.search RegEx.root (.nums cands) ps selStates none true true true 1 100
    [⟨.scalar 1, ⟨[1], 3, .none, some 50⟩⟩]

/-- With increasing parameters regularization 0 wins. -/
example : (selRun [.scalar 1, .scalar 2] [1, 0]).2 = .ok () ∧ (selIRun [.scalar 1, .scalar 2] [1, 0]).2 = .ok () := by
  constructor <;> decide +kernel

/-- The hypotheses of `C88_discrete_partial` can be satisfied. -/
example : ∃ w s', tikSetReg (RegEx.factory 2) selBase w = (s', .ok ()) ∧
    (selRom.withModel { selModel with solver := some s' }).fit selP [.scalar 1, .scalar 2] selStates none none true true =
      ((selRun [.scalar 1, .scalar 2] [1, 0]).1, .ok ()) := by
  obtain ⟨R1, d, tests, trains, -, -, -, -, w, s', v, h1, h2, -⟩ := C88_discrete_partial toyLib RegEx.tik
    (setReg := tikSetReg (RegEx.factory 2)) RegEx.search (tikSetReg_overwrites _) (fun _ => trivial) RegEx.root
    (.nums [1, 0]) selRom (selRun [.scalar 1, .scalar 2] [1, 0]).1 rfl selBase rfl (tik_commute _ _ _ _ rfl)
    [.scalar 1, .scalar 2] (by
      intro s hs _
      simp only [selRom, selModel, mem_singleton] at hs
      subst hs
      intro _ xs hx
      cases hx
      decide +kernel) selStates none true true true 1 100 [⟨.scalar 1, ⟨[1], 3, .none, some 50⟩⟩]
    (Prod.ext (x := selRun [.scalar 1, .scalar 2] [1, 0]) rfl (by decide +kernel))
  exact ⟨w, s', h1, h2⟩

/-- **C88 (concrete witness).** With the parameters 2, 1 instead of 1, 2 training with regularization 0 succeeds, but
the selection between the candidates 1 and 0 raises an error, also with the single candidate 0, for both kinds of
models. -/
theorem C88_unordered_witness :
    ((selRom.withModel { selModel with solver := some ⟨some (Mat.diag [0, 0]), .normal, none, none⟩ }).fit selP
      [.scalar 2, .scalar 1] selStates none none true true).2 = .ok () ∧
    (selIRom.fit selIP [.scalar 2, .scalar 1] selStates none none true true).2 = .ok () ∧
    (selRun [.scalar 2, .scalar 1] [0]).2 = .error .value ∧ (selRun [.scalar 2, .scalar 1] [1, 0]).2 = .error .value ∧
    (selIRun [.scalar 2, .scalar 1] [0]).2 = .error .value ∧ (selIRun [.scalar 2, .scalar 1] [1, 0]).2 = .error .value := by
  refine ⟨?_, ?_, ?_, ?_, ?_, ?_⟩ <;> decide +kernel

/-- The hypotheses of `C88_unordered` can be satisfied. -/
example : (selRun [.scalar 2, .scalar 1] [1, 0]).2 ≠ .ok () := by
  intro h
  obtain ⟨-, -, -, h'⟩ := selectDiscrete_ok selP selJ (pEvalAt toyLib) RegEx.search RegEx.root (.nums [1, 0]) selRom
    (selRun [.scalar 2, .scalar 1] [1, 0]).1 _ _ _ _ _ _ _ _ _ (Prod.ext (x := selRun [.scalar 2, .scalar 1] [1, 0]) rfl h)
  exact C88_unordered toyLib_contract RegEx.tik _ _ _ _ _ selRom rfl ⟨_, mem_cons_self, rfl, _, rfl, rfl⟩
    [.scalar 2, .scalar 1] [2, 1] (by decide +kernel) (by decide +kernel) _ _ _ _ _ (congrArg Prod.snd h')

/-- **C88 is false of the code for interpolatory models** (concrete witness). The selected regularization is 1, but the
solver of the model keeps regularization 0: training again with the same data gives other operators. With one regression
problem it gives the same operators. -/
theorem C88_later_fit_witness :
    (selIRun [.scalar 1, .scalar 2] [1]).2 = .ok () ∧
    ((selIRun [.scalar 1, .scalar 2] [1]).1.fit selIP [.scalar 1, .scalar 2] selStates none none true true).2 = .ok () ∧
    ((selIRun [.scalar 1, .scalar 2] [1]).1.model.base.ops.map fun o => o.interp?.bind (·.entries)) =
      [some [⟨1, 1, [[30 / 11]]⟩, ⟨1, 1, [[5 / 3]]⟩]] ∧
    (((selIRun [.scalar 1, .scalar 2] [1]).1.fit selIP [.scalar 1, .scalar 2] selStates none none true true).1.model.base.ops.map
      fun o => o.interp?.bind (·.entries)) = [some [⟨1, 1, [[3]]⟩, ⟨1, 1, [[2]]⟩]] ∧
    (((selRun [.scalar 1, .scalar 2] [1]).1.fit selP [.scalar 1, .scalar 2] selStates none none true true).1.model.ops.map
      fun o => o.interp?.bind (·.entries)) = [some [⟨1, 1, [[30 / 11]]⟩, ⟨1, 1, [[5 / 3]]⟩]] := by
  refine ⟨?_, ?_, ?_, ?_, ?_⟩ <;> decide +kernel

/-- The hypothesis of `C88_predictions` can be satisfied. -/
example : (selModel.fitSolver toyLib RegEx.tik [.scalar 1, .scalar 2] [.mat 1 [[1], [3]], .mat 1 [[1], [2]]]
    [.mat 1 [[3], [9]], .mat 1 [[2], [4]]] none).2 = .ok () := by decide +kernel

/-- The hypotheses of `C88_interpolatory_partial` can be satisfied. -/
example : ∃ w s', tikSetReg (RegEx.factory 1) ⟨some (Mat.diag [0]), .normal, none, none⟩ w = (s', .ok ()) ∧
    ((selIRom.withModel (selIRom.model.withSolver s')).fit selIP [.scalar 1, .scalar 2] selStates none none true true).2 =
      .ok () := by
  obtain ⟨-, -, -, h'⟩ := selectDiscrete_ok selIP selIJ (iEvalAt toyLib) RegEx.search RegEx.root (.nums [1, 0]) selIRom
    (selIRun [.scalar 1, .scalar 2] [1, 0]).1 _ _ _ _ _ _ _ _ _
    (Prod.ext (x := selIRun [.scalar 1, .scalar 2] [1, 0]) rfl (by decide +kernel))
  obtain ⟨-, R1, d, tests, trains, -, -, -, -, w, s', v, h1, h2, -⟩ := C88_interpolatory_partial toyLib selBase
    (fun _ => selBase) RegEx.tik (setReg := tikSetReg (RegEx.factory 1)) RegEx.search (tikSetReg_overwrites _)
    (fun _ => trivial) _ _ _ selIRom _ rfl ⟨some (Mat.diag [0]), .normal, none, none⟩ rfl (tik_commute _ _ _ _ rfl)
    [.scalar 1, .scalar 2] (by simp) (by
      intro s hs
      simp only [selIRom, selModel, mem_singleton] at hs
      subst hs
      intro _ xs hx
      cases hx
      decide +kernel) selStates none none true true (.inr rfl) h'
  exact ⟨w, s', h1, congrArg Prod.snd h2.2⟩

end Opinf
