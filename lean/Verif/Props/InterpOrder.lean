import Verif.Props.ParamOrder
import Verif.Props.ParamSelectOrder

/-!
# C111 for models of interpolated operators

Specification: permutations of the list of training parameters, each with its data.
-/

namespace Opinf

open List

variable {K S : Type}

/-- `fit(parameters, states, lhs, inputs)`, the inputs being passed to models with inputs only. -/
def IModel.fitOn [CommRing K] [LinearOrder K] (lib : ItpLib K) (plain : S) (l2 : Int → S) (I : SolverI K S) (M : IModel K S)
    (T : List (ParamData K)) : IModel K S × Except Err Unit :=
  M.fit lib plain l2 I (T.map ParamData.mu) (T.map ParamData.states) (T.map ParamData.lhs)
    (if M.base.hasInputs then some (T.map ParamData.inputs) else none)

/-- A class of interpolators for which the order of the data does not matter. -/
def ItpLib.OrderFree (lib : ItpLib K) (c : ItpClass) : Prop :=
  ∀ Y Y' : List (Par K × Mat K), Y.Perm Y' → ∀ P P', PArr.ofPars (Y.map Prod.fst) = .ok P →
    PArr.ofPars (Y'.map Prod.fst) = .ok P' → ∀ mu, lib.eval c P (Y.map Prod.snd) mu = lib.eval c P' (Y'.map Prod.snd) mu

/-- The order of the training parameters cannot matter for this operator: it has the default class, which sorts scalar
parameters, or a class for which the order of the data does not matter. -/
def Interp.Sorts (lib : ItpLib K) (t : Interp K) (T : List (ParamData K)) : Prop :=
  (t.cls = none ∧ (T.map fun x => x.mu.toList).Nodup ∧ ∀ x ∈ T, x.mu.dim = 1) ∨
    (t.cls = none ∧ (∀ x ∈ T, x.mu.dim ≠ 1) ∧ lib.OrderFree .linearND) ∨ ∃ c, t.cls = some c ∧ lib.OrderFree c

/-- All operators are interpolated, to be inferred, and indifferent to the order of the training parameters. -/
def IModel.Indifferent (lib : ItpLib K) (M : IModel K S) (T : List (ParamData K)) : Prop :=
  M.base.intrusive = false ∧ ∀ s ∈ M.base.slots, s.infer = true ∧ ∃ t, s.op = .itp t ∧ t.Sorts lib T

/-! ### Sorting -/

theorem sortPairs_congr [LinearOrder K] (Y Y' : List (K × Mat K)) (h : Y.Perm Y') (hn : (Y.map Prod.fst).Nodup) :
    Y.insertionSort (fun a b => a.1 ≤ b.1) = Y'.insertionSort (fun a b => a.1 ≤ b.1) := by
  have key : ∀ a ∈ Y, ∀ b ∈ Y, a.1 = b.1 → a = b := by
    intro a ha b hb hab
    exact inj_on_of_nodup_map hn ha hb hab
  haveI : Std.Total (fun a b : K × Mat K => a.1 ≤ b.1) := ⟨fun a b => le_total a.1 b.1⟩
  haveI : IsTrans (K × Mat K) (fun a b => a.1 ≤ b.1) := ⟨fun a b c h1 h2 => le_trans h1 h2⟩
  refine ((perm_insertionSort _ Y).trans (h.trans (perm_insertionSort _ Y').symm)).eq_of_pairwise
    (fun a b ha hb h1 h2 => ?_) (pairwise_insertionSort _ _) (pairwise_insertionSort _ _)
  exact key a ((perm_insertionSort _ Y).mem_iff.1 ha) b (h.mem_iff.2 ((perm_insertionSort _ Y').mem_iff.1 hb))
    (le_antisymm h1 h2)

/-! ### The data -/

/-- The data set of one training parameter. -/
def ParamData.set (hasIn : Bool) (x : ParamData K) : PSet K :=
  ⟨x.mu, (atleast2d x.states).1, (atleast2d x.states).2, if hasIn then some (atleast2d x.inputs) else none⟩

theorem makeSets_set (hasIn : Bool) (T : List (ParamData K)) (U : List (Option (Nat × List (List K))))
    (hU : U = T.map fun x => if hasIn then some (atleast2d x.inputs) else none) :
    makeSets (T.map ParamData.mu) ((T.map ParamData.states).map atleast2d) U = T.map (ParamData.set hasIn) := by
  subst hU
  induction T with
  | nil => rfl
  | cons x T ih => simpa [makeSets, ParamData.set] using ih

theorem pSubKnown_none [CommRing K] (lib : ItpLib K) (data : List (PSet K)) (slots : List (PSlot K))
    (h : ∀ s ∈ slots, s.infer = true) (Z : List (List (List K))) : pSubKnown lib data slots Z = .ok Z := by
  induction slots with
  | nil => rfl
  | cons s ss ih =>
    simp only [pSubKnown, h s mem_cons_self, if_true]
    exact ih fun s' hs' => h s' (mem_cons_of_mem _ hs')

/-! ### Submodels -/

/-- The trained submodel for one training parameter (an arbitrary one if it cannot be trained). -/
def subModel [CommRing K] (plain : S) (l2 : Int → S) (I : SolverI K S) (B : PModel K S) (s : S) (x : PSet K)
    (L : List (List K)) : Except Err (Model K S) :=
  match fitSub plain l2 I B s 0 x L with
  | .error e => .error e
  | .ok N => finish (N.refit I)

theorem fitSub_same [CommRing K] (plain : S) (l2 : Int → S) (I : SolverI K S) (B B' : PModel K S) (s : S) (i j : Nat)
    (x : PSet K) (L : List (List K)) (h : B.ops.mapM (subOp i) = B'.ops.mapM (subOp j)) :
    fitSub plain l2 I B s i x L = fitSub plain l2 I B' s j x L := by
  simp only [fitSub, h]

theorem subOp_cleared (d : Nat) (slots : List (PSlot K)) (h : ∀ s ∈ slots, s.infer = true ∧ ∃ t, s.op = .itp t) (i : Nat) :
    ((slots.map (prepSlot d)).map PSlot.op).mapM (subOp i) = .ok (slots.map fun s => (⟨s.op.kind, none⟩ : Op K)) := by
  rw [mapM_ok_forall2, map_map, forall₂_map_left_iff, forall₂_map_right_iff, forall₂_same]
  intro s hs
  obtain ⟨h1, t, ht⟩ := h s hs
  simp only [Function.comp_apply, prepSlot, h1, if_true, ht, POp.clear, POp.fill, POp.kind]
  simp [Interp.clear, subOp]

/-- The model whose operators to infer have been cleared. -/
def PModel.cleared (B : PModel K S) : PModel K S := { B with slots := B.slots.map (prepSlot 0) }

/-- The entries one training parameter contributes to the `k`-th operator, a function of the data of that parameter. -/
def IModel.learned [CommRing K] (plain : S) (l2 : Int → S) (I : SolverI K S) (M : IModel K S) (s : S) (k : Nat) (kind : OpKind)
    (x : ParamData K) : Except Err (Mat K) :=
  match subModel plain l2 I M.base.cleared s (x.set M.base.hasInputs) (atleast2d x.lhs).2 with
  | .error e => .error e
  | .ok N => match N.ops[k]? with
    | none => .error .index
    | some o => match o.entries with
      | none => .error .type
      | some E => kind.setEntries E

theorem forall₂_of_fitSubs [CommRing K] (plain : S) (l2 : Int → S) (I : SolverI K S) (B C : PModel K S) (s : S)
    (hops : ∀ i, B.ops.mapM (subOp i) = C.ops.mapM (subOp 0)) {β : Type} (T : List β) (f : β → PSet K)
    (g : β → List (List K)) (i : Nat) (Ns : List (Model K S))
    (h : fitSubs plain l2 I B s i (T.map f) (T.map g) = .ok Ns) :
    Forall₂ (fun x N => fitSub plain l2 I C s 0 (f x) (g x) = .ok N) T Ns := by
  induction T generalizing i Ns with
  | nil => simp only [map_nil, fitSubs, Except.ok.injEq] at h; subst h; exact .nil
  | cons x T ih =>
    simp only [map_cons, fitSubs] at h
    rw [fitSub_same plain l2 I B C s i 0 _ _ (hops i)] at h
    cases hN : fitSub plain l2 I C s 0 (f x) (g x) with
    | error e => rw [hN] at h; cases h
    | ok N =>
      rw [hN] at h
      simp only at h
      cases hNs : fitSubs plain l2 I B s (i + 1) (T.map f) (T.map g) with
      | error e => rw [hNs] at h; cases h
      | ok Ns' =>
        rw [hNs] at h
        cases h
        exact .cons hN (ih (i + 1) Ns' hNs)

theorem parseEntries_items [AddMonoid K] {kind : OpKind} {n : Nat} {As Bs : List (Mat K)}
    (h : parseEntries kind n (.list As) = .ok Bs) : Forall₂ (fun A B => kind.setEntries A = .ok B) As Bs := by
  simp only [parseEntries, bind, Except.bind, throw, throwThe, MonadExceptOf.throw, pure, Except.pure] at h
  split at h
  · cases h
  split at h
  · cases h
  exact mapM_ok_forall2.1 h

/-- One training: the interpolators are made from what each training parameter contributes. -/
theorem ifitOn_facts [Field K] [LinearOrder K] (lib : ItpLib K) (plain : S) (l2 : Int → S) (I : SolverI K S)
    (M M₁ : IModel K S) (T : List (ParamData K)) (hM : M.base.intrusive = false)
    (hs : ∀ s ∈ M.base.slots, s.infer = true ∧ ∃ t, s.op = .itp t) (h : M.fitOn lib plain l2 I T = (M₁, .ok ())) :
    ∃ s, M.base.solver = some s ∧ M₁.base.slots.length = M.base.slots.length ∧
      ∀ k sl t, M.base.slots[k]? = some sl → sl.op = .itp t → ∃ t' P As, M₁.base.slots[k]? = some ⟨.itp t', true⟩ ∧
        PArr.ofPars (T.map ParamData.mu) = .ok P ∧
        Forall₂ (fun x A => M.learned plain l2 I s k t.kind x = .ok A) T As ∧ t'.kind = t.kind ∧ t'.p = some P.dim ∧
        t'.entries = some As ∧ t'.itp = some (itpData t.cls P As) := by
  rw [IModel.fitOn, IModel.fit, if_neg (by simp [hM])] at h
  rcases hf : M.fitSolver lib plain l2 I (T.map ParamData.mu) (T.map ParamData.states) (T.map ParamData.lhs)
    (if M.base.hasInputs then some (T.map ParamData.inputs) else none) with ⟨M0, e | _⟩
  · rw [hf] at h; cases h
  rw [hf] at h
  simp only at h
  obtain ⟨Y, data, Z, s, Ns, h1, h2, h3, h4, rfl⟩ := ifitSolver_ok hf
  obtain ⟨d, U, -, c2, -, -, -, -, c3, -, c4, -, -, c5, c6, c7, c8⟩ := process_inv lib _ _ _ _ _ _ _ _ h1
  have hdata : data = T.map (ParamData.set M.base.hasInputs) := by
    rw [c7]
    apply makeSets_set
    cases hi : M.base.hasInputs with
    | true =>
      obtain ⟨us, a1, a2, -⟩ := c5 hi
      rw [hi] at a1
      simp only [if_true, Option.some.injEq] at a1
      rw [a2, ← a1]
      simp
    | false =>
      rw [(c6 hi).1]
      simp
  have hinf : ∀ s ∈ Y.slots, s.infer = true := by
    rw [c2]
    intro s' hs'
    obtain ⟨s0, hs0, rfl⟩ := mem_map.1 hs'
    exact (hs s0 hs0).1
  rw [pSubKnown_none lib data _ hinf] at c8
  have hZ : Z = T.map fun x => (atleast2d x.lhs).2 := by
    have := Except.ok.inj c8
    rw [← this]
    simp
  rw [hdata, hZ] at h4
  have hsub := forall₂_of_fitSubs plain l2 I Y M.base.cleared s (fun i => by
    rw [PModel.ops, c2, PModel.ops, PModel.cleared]
    rw [subOp_cleared d _ hs i, subOp_cleared 0 _ hs 0]) T _ _ 0 Ns h4
  simp only [IModel.refit] at h
  rcases hr : refitSubs I Ns with ⟨Ns', e | _⟩
  · rw [hr] at h; cases h
  rw [hr] at h
  simp only [Prod.mk.injEq] at h
  obtain ⟨rfl, h5⟩ := h
  have hr' := refitSubs_ok I Ns Ns' hr
  have hsub' : Forall₂ (fun x N => subModel plain l2 I M.base.cleared s (x.set M.base.hasInputs) (atleast2d x.lhs).2 = .ok N)
      T Ns' := by
    have := forall₂_comp_iff.2 ⟨Ns, hsub, hr'⟩
    refine this.imp ?_
    rintro x N ⟨N0, a1, a2⟩
    rw [subModel, a1]
    simp only [a2, finish]
  obtain ⟨g1, g2⟩ := reinterpolateAll_ok lib _ Ns' 0 Y.slots _ (Prod.ext rfl h5)
  refine ⟨s, h2, by simpa [c2] using g1, fun k sl t hk ht => ?_⟩
  obtain ⟨o, o1, o2⟩ := g2 k (prepSlot d sl) (by rw [c2, getElem?_map, hk]; rfl)
  have hsl := hs sl (mem_of_getElem? hk)
  have hop : (prepSlot d sl).op = .itp { t.clear with p := some d } := by
    simp [prepSlot, hsl.1, ht, POp.clear, POp.fill, Interp.clear]
  rw [hop] at o2
  simp only [reinterpolate] at o2
  cases hP : PArr.ofPars (T.map ParamData.mu) with
  | error e =>
    simp [Interp.setParams, Interp.clear, hP] at o2
  | ok P =>
    have hset : ({ t.clear with p := some d } : Interp K).clear.setParams (T.map ParamData.mu) =
        .ok { t.clear with params := some P, p := some P.dim } := by
      simp [Interp.setParams, Interp.clear, hP]
    rw [hset] at o2
    simp only [Nat.zero_add] at o2
    cases hE : subEntries k Ns' with
    | error e => rw [hE] at o2; cases o2
    | ok As =>
      rw [hE] at o2
      simp only [Prod.mk.injEq] at o2
      obtain ⟨rfl, o3⟩ := o2
      simp only [Interp.setEntries] at o3 o1
      cases hpe : parseEntries t.clear.kind P.length (.list As) with
      | error e => rw [hpe] at o3; cases o3
      | ok Bs =>
        rw [hpe] at o3 o1
        simp only [Interp.setInterpolator] at o3 o1
        cases hb : lib.build (itpData t.clear.cls P Bs).1 (itpData t.clear.cls P Bs).2.1 (itpData t.clear.cls P Bs).2.2 with
        | error e => rw [hb] at o3; cases o3
        | ok u =>
          rw [hb] at o1
          refine ⟨⟨t.kind, some P, some P.dim, some Bs, some (itpData t.cls P Bs).1, some (itpData t.cls P Bs)⟩, P, Bs,
            by rw [o1]; simp [prepSlot, hsl.1]; exact ⟨rfl, rfl, rfl⟩, rfl, ?_, rfl, rfl, rfl, rfl⟩
          have q1 := parseEntries_items hpe
          unfold subEntries at hE
          rw [mapM_ok_forall2] at hE
          have := forall₂_comp_iff.2 ⟨_, forall₂_comp_iff.2 ⟨_, hsub', hE⟩, q1⟩
          refine this.imp ?_
          rintro x B ⟨A, ⟨N, b1, b2⟩, b3⟩
          rw [IModel.learned, b1]
          simp only
          split at b2
          · cases b2
          split at b2
          · cases b2
          cases b2
          rename_i o ho E hE'
          simp only [ho, hE']
          exact b3

/-! ### Two trainings -/

/-- Two interpolated operators that cannot be told apart by `evaluate`. -/
structure Interp.Same (lib : ItpLib K) (t t' : Interp K) : Prop where
  kind : t'.kind = t.kind
  p : t'.p = t.p
  entries : t'.entries.isSome = t.entries.isSome
  itp : ∃ x x', t.itp = some x ∧ t'.itp = some x' ∧ ∀ mu, lib.eval x'.1 x'.2.1 x'.2.2 mu = lib.eval x.1 x.2.1 x.2.2 mu

theorem Interp.Same.evaluate [AddMonoid K] {lib : ItpLib K} {t t' : Interp K} (h : t.Same lib t') (mu : Par K) :
    t'.evaluate lib mu = t.evaluate lib mu := by
  obtain ⟨⟨c, P, As⟩, ⟨c', P', As'⟩, h1, h2, h3⟩ := h.itp
  have hu : t'.unwrap mu = t.unwrap mu := by simp only [Interp.unwrap, h.p]
  have he := h.entries
  simp only at h3
  simp only [Interp.evaluate, h1, h2, h.p, h.kind, hu, h3]
  cases ha : t.entries <;> cases hb : t'.entries <;> simp_all

theorem evalOps_same [Semiring K] (lib : ItpLib K) (mu : Par K) (ss ss' : List (PSlot K))
    (h : Forall₂ (fun s s' => ∃ t t', s.op = .itp t ∧ s'.op = .itp t' ∧ t.Same lib t') ss ss') :
    (evalOps lib mu ss').2 = (evalOps lib mu ss).2 := by
  induction h with
  | nil => rfl
  | cons h _ ih =>
    obtain ⟨t, t', h1, h2, h3⟩ := h
    simp only [evalOps, h1, h2, POp.evaluate, h3.evaluate mu]
    cases t.evaluate lib mu with
    | error e => rfl
    | ok o =>
      simp only
      generalize evalOps lib mu _ = x at ih ⊢
      generalize evalOps lib mu _ = y at ih ⊢
      obtain ⟨x1, x2⟩ := x
      obtain ⟨y1, y2⟩ := y
      simp only at ih
      subst ih
      cases x2 <;> rfl

/-- The scalar value of a one-dimensional parameter. -/
def Par.key [Zero K] (mu : Par K) : K := mu.toList.getD 0 0

theorem toList_key [Zero K] (mu : Par K) (h : mu.dim = 1) : mu.toList = [mu.key] := by
  cases mu with
  | scalar x => rfl
  | vec xs =>
    obtain ⟨x, rfl⟩ := length_eq_one_iff.1 h
    rfl

theorem ofPars_one [Zero K] {ps : List (Par K)} {P : PArr K} (h : PArr.ofPars ps = .ok P) (h1 : ∀ mu ∈ ps, mu.dim = 1) :
    P = .one (ps.map Par.key) := by
  have hk : ps.flatMap Par.toList = ps.map Par.key := by
    clear h
    induction ps with
    | nil => rfl
    | cons mu ps ih =>
      rw [flatMap_cons, toList_key mu (h1 mu mem_cons_self), ih fun m hm => h1 m (mem_cons_of_mem _ hm)]
      rfl
  cases ps with
  | nil => cases h
  | cons mu ps =>
    simp only [PArr.ofPars] at h
    split at h
    · cases h
    rw [hk] at h
    have := h1 mu mem_cons_self
    cases mu with
    | scalar x => exact (Except.ok.inj h).symm
    | vec xs =>
      simp only [Par.dim] at this
      simp only [Par.shape, this, if_true, Except.ok.injEq] at h
      exact h.symm

theorem ofPars_two {ps : List (Par K)} {P : PArr K} (h : PArr.ofPars ps = .ok P) (h1 : ∀ mu ∈ ps, mu.dim ≠ 1) :
    ∃ p rows, P = .two p rows := by
  obtain ⟨-, w2, w3⟩ := ofPars_wf h
  cases ps with
  | nil => cases h
  | cons mu ps =>
    cases P with
    | one xs => exact absurd (w3 mu mem_cons_self) (h1 mu mem_cons_self)
    | two p rows => exact ⟨p, rows, rfl⟩

theorem itp_same [Field K] [LinearOrder K] {lib : ItpLib K} {t : Interp K} {T T' : List (ParamData K)} (hperm : T.Perm T')
    (hS : t.Sorts lib T) {P P' : PArr K} (hP : PArr.ofPars (T.map ParamData.mu) = .ok P)
    (hP' : PArr.ofPars (T'.map ParamData.mu) = .ok P') (g : ParamData K → Mat K) (mu : Par K) :
    lib.eval (itpData t.cls P' (T'.map g)).1 (itpData t.cls P' (T'.map g)).2.1 (itpData t.cls P' (T'.map g)).2.2 mu =
      lib.eval (itpData t.cls P (T.map g)).1 (itpData t.cls P (T.map g)).2.1 (itpData t.cls P (T.map g)).2.2 mu := by
  have hfree : ∀ c, lib.OrderFree c → lib.eval c P' (T'.map g) mu = lib.eval c P (T.map g) mu := by
    intro c hc
    have := hc (T'.map fun x => (x.mu, g x)) (T.map fun x => (x.mu, g x)) (hperm.symm.map _) P' P
      (by simpa [Function.comp_def] using hP') (by simpa [Function.comp_def] using hP) mu
    simpa [Function.comp_def] using this
  rcases hS with ⟨h1, h2, h3⟩ | ⟨h1, h2, h3⟩ | ⟨c, h1, h2⟩
  · have hp := ofPars_one hP (by simpa using h3)
    have hp' := ofPars_one hP' (by
      intro mu hmu
      obtain ⟨x, hx, rfl⟩ := mem_map.1 hmu
      exact h3 x (hperm.mem_iff.2 hx))
    have hs : sortPairs ((T'.map ParamData.mu).map Par.key) (T'.map g) = sortPairs ((T.map ParamData.mu).map Par.key) (T.map g) := by
      simp only [sortPairs, map_map, zip_map']
      refine sortPairs_congr _ _ (hperm.symm.map _) ?_
      rw [map_map]
      have hn : (T.map fun x => x.mu.key).Nodup := by
        have : (T.map fun x => x.mu.toList) = (T.map fun x => x.mu.key).map fun y => [y] := by
          rw [map_map]
          exact map_congr_left fun x hx => toList_key _ (h3 x hx)
        rw [this] at h2
        exact h2.of_map _
      exact ((hperm.symm.map _).nodup_iff).2 hn
    rw [h1, hp, hp']
    simp only [itpData, hs]
  · obtain ⟨p, rows, rfl⟩ := ofPars_two hP (by simpa using h2)
    obtain ⟨p', rows', rfl⟩ := ofPars_two hP' (by
      intro mu hmu
      obtain ⟨x, hx, rfl⟩ := mem_map.1 hmu
      exact h2 x (hperm.mem_iff.2 hx))
    rw [h1]
    exact hfree _ h3
  · rw [h1]
    exact hfree _ h2

/-- **C111** (interpolatory models): whatever the solver, two trainings on the same training parameters in different orders
give the same right-hand side, Jacobian and predictions at every parameter. -/
theorem C111_interpolated [Field K] [LinearOrder K] (lib : ItpLib K) (plain : S) (l2 : Int → S) (I : SolverI K S)
    (M M₁ M₂ : IModel K S) (T T' : List (ParamData K)) (hperm : T.Perm T') (hM : M.Indifferent lib T)
    (h₁ : M.fitOn lib plain l2 I T = (M₁, .ok ())) (h₂ : M.fitOn lib plain l2 I T' = (M₂, .ok ())) :
    (∀ mu, (M₂.base.evaluate lib mu).2 = (M₁.base.evaluate lib mu).2) ∧
    (∀ mu q u, (M₂.base.rhs lib mu q u).2 = (M₁.base.rhs lib mu q u).2) ∧
    (∀ mu q u, (M₂.base.jacobian lib mu q u).2 = (M₁.base.jacobian lib mu q u).2) ∧
    ∀ mu q n u, (M₂.base.predict lib mu q n u).2 = (M₁.base.predict lib mu q n u).2 := by
  have hs : ∀ s ∈ M.base.slots, s.infer = true ∧ ∃ t, s.op = .itp t := fun s hs =>
    ⟨(hM.2 s hs).1, (hM.2 s hs).2.imp fun t h => h.1⟩
  obtain ⟨s, a1, a2, a3⟩ := ifitOn_facts lib plain l2 I M M₁ T hM.1 hs h₁
  obtain ⟨s', b1, b2, b3⟩ := ifitOn_facts lib plain l2 I M M₂ T' hM.1 hs h₂
  rw [a1] at b1
  cases b1
  have hslots : Forall₂ (fun s s' => ∃ t t', s.op = .itp t ∧ s'.op = .itp t' ∧ t.Same lib t') M₁.base.slots M₂.base.slots := by
    rw [forall₂_iff_get]
    refine ⟨by rw [a2, b2], fun k h1 h2 => ?_⟩
    have hk : k < M.base.slots.length := by rw [← a2]; exact h1
    obtain ⟨-, t, ht, hS⟩ := hM.2 _ (getElem_mem hk)
    obtain ⟨t1, P, As, c1, c2, c3, c4, c5, c6, c7⟩ := a3 k _ t (getElem?_eq_getElem hk) ht
    obtain ⟨t2, P', As', d1, d2, d3, d4, d5, d6, d7⟩ := b3 k _ t (getElem?_eq_getElem hk) ht
    have e1 : M₁.base.slots.get ⟨k, h1⟩ = ⟨.itp t1, true⟩ := by
      rw [get_eq_getElem]; exact (List.getElem?_eq_some_iff.1 c1).2
    have e2 : M₂.base.slots.get ⟨k, h2⟩ = ⟨.itp t2, true⟩ := by
      rw [get_eq_getElem]; exact (List.getElem?_eq_some_iff.1 d1).2
    rw [e1, e2]
    obtain ⟨g, hg⟩ : ∃ g : ParamData K → Mat K, ∀ x A, M.learned plain l2 I s k t.kind x = .ok A → A = g x :=
      ⟨fun x => match M.learned plain l2 I s k t.kind x with
        | .ok A => A
        | .error _ => ⟨0, 0, []⟩, fun x A h => by simp [h]⟩
    have hAs : ∀ (U : List (ParamData K)) (Bs : List (Mat K)),
        Forall₂ (fun x A => M.learned plain l2 I s k t.kind x = .ok A) U Bs → Bs = U.map g := by
      intro U Bs hU
      induction hU with
      | nil => rfl
      | cons h _ ih => rw [map_cons, ← hg _ _ h, ih]
    rw [hAs _ _ c3] at c6 c7
    rw [hAs _ _ d3] at d6 d7
    refine ⟨t1, t2, rfl, rfl, ⟨by rw [c4, d4], ?_, by rw [c6, d6]; rfl, _, _, c7, d7, itp_same hperm hS c2 d2 g⟩⟩
    rw [c5, d5]
    obtain ⟨-, w2, w3⟩ := ofPars_wf c2
    obtain ⟨-, -, w4⟩ := ofPars_wf d2
    cases T with
    | nil => cases c2
    | cons x T =>
      rw [← w3 x.mu (by simp), ← w4 x.mu (mem_map.2 ⟨x, hperm.mem_iff.1 mem_cons_self, rfl⟩)]
  have he : ∀ mu, (M₂.base.evaluate lib mu).2 = (M₁.base.evaluate lib mu).2 := by
    intro mu
    have := evalOps_same lib mu _ _ hslots
    unfold PModel.evaluate
    generalize evalOps lib mu M₁.base.slots = x at this ⊢
    generalize evalOps lib mu M₂.base.slots = y at this ⊢
    obtain ⟨x1, x2⟩ := x
    obtain ⟨y1, y2⟩ := y
    simp only at this
    subst this
    cases y2 <;> rfl
  exact ⟨he, fun mu q u => by simp only [PModel.rhs, he], fun mu q u => by simp only [PModel.jacobian, he],
    fun mu q n u => by simp only [PModel.predict, he]⟩

/-- A model with one interpolated linear operator, and its training data. -/
def iOrd : IModel ℚ (Option (ℚ × Nat)) :=
  ⟨⟨[⟨.itp ⟨.lin, none, none, none, none, none⟩, true⟩], false, none, none, false, some none, none, none⟩, none, []⟩

def iOrdData : List (ParamData ℚ) :=
  [⟨.scalar 1, .mat 1 [[1], [2]], .mat 1 [[3], [6]], .mat 0 []⟩, ⟨.scalar 2, .mat 1 [[1]], .mat 1 [[7]], .mat 0 []⟩]

/-- The hypotheses of `C111_interpolated` are satisfiable: two training parameters in both orders. -/
example : iOrd.Indifferent toyLib iOrdData ∧
    (iOrd.fitOn toyLib none (fun _ => none) oneSolver iOrdData).2 = .ok () ∧
    (iOrd.fitOn toyLib none (fun _ => none) oneSolver iOrdData.reverse).2 = .ok () ∧
    ((iOrd.fitOn toyLib none (fun _ => none) oneSolver iOrdData.reverse).1.base.rhs toyLib (.scalar 2) [2] none).2 =
      .ok [14] := by
  refine ⟨⟨rfl, fun s hs => ?_⟩, by decide +kernel, by decide +kernel, by decide +kernel⟩
  simp only [iOrd, mem_cons, not_mem_nil, or_false] at hs
  subst hs
  exact ⟨rfl, _, rfl, .inl ⟨rfl, by decide +kernel, by decide +kernel⟩⟩

end Opinf
