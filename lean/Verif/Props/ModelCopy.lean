import Verif.Props.Construct
import Verif.Props.Galerkin
import Verif.Props.Fit

/-!
# Projection, copying, saving and loading of models
-/

namespace Opinf

open List

variable {K : Type}

/-- A trained model of state dimension `r` and input dimension `m`. -/
structure Model.Trained {S : Type} (M : Model K S) (r m : Nat) : Prop where
  inv : M.Inv
  pos : 0 < r
  nonempty : M.ops ≠ []
  dim : M.r = some r
  inputs : M.m = some m
  cal : ∀ o ∈ M.ops, o.Cal r m

/-! ### Helper lemmas -/

theorem matVec_foldl_vadd [CommSemiring K] (A L : List (List K)) (acc : List K)
    (h : ∀ l ∈ L, l.length = acc.length) :
    matVec A (L.foldl vadd acc) = (L.map (matVec A)).foldl vadd (matVec A acc) := by
  induction L generalizing acc with
  | nil => rfl
  | cons l L ih =>
    have hl := h l mem_cons_self
    simp only [foldl_cons, map_cons]
    rw [ih, matVec_vadd _ _ _ hl.symm]
    intro x hx
    rw [h x (mem_cons_of_mem _ hx)]
    simp [vadd, hl]

theorem matVec_zero [CommSemiring K] (A : List (List K)) (r : Nat) :
    matVec A (replicate r (0 : K)) = replicate A.length 0 := by
  rw [matVec, ← map_const']
  apply map_congr_left
  intro row _
  rw [dot_comm', dot_replicate_zero]

theorem Op.Cal.stateDim {o : Op K} {r m : Nat} (h : o.Cal r m) : o.stateDim = some r := by
  obtain ⟨E, hE, hF⟩ := h
  simp [Op.stateDim, hE, hF.2.1]

theorem Op.Cal.inputDim {o : Op K} {r m : Nat} (h : o.Cal r m) (hr : 0 < r)
    (hi : o.kind.hasInputs = true) : o.inputDim = some m := by
  obtain ⟨E, hE, -, h2, h3⟩ := h
  cases hk : o.kind with
  | inp =>
    rw [hk] at h3
    simp only [OpKind.dim] at h3
    simp [Op.inputDim, hE, hk, h3]
  | stateInp =>
    rw [hk] at h3
    simp only [OpKind.dim] at h3
    simp [Op.inputDim, hE, hk, h3, h2, Nat.mul_div_cancel_left m hr]
  | const => rw [hk] at hi; cases hi
  | lin => rw [hk] at hi; cases hi
  | kron k => rw [hk] at hi; cases hi

theorem mapM_resolve_op (ops : List (Op K)) : (ops.map OpArg.op).mapM OpArg.resolve = .ok ops := by
  induction ops with
  | nil => rfl
  | cons o ops ih => rw [map_cons, mapM_cons, ih]; rfl

/-- Constructing a model from operators that are all set and consistent. -/
theorem construct_set {S : Type} (plain : S) (l2 : Int → S) (ops : List (Op K)) (r m : Nat)
    (hr : 0 < r) (hne : ops ≠ []) (hcal : ∀ o ∈ ops, o.Cal r m) (a : SolverArg S) :
    ∃ N, Model.construct plain l2 (ops.map OpArg.op) a = .ok N ∧ N.ops = ops ∧ N.r = some r ∧
      N.intrusive = true ∧ (∀ s ∈ N.slots, s.infer = false) ∧ N.Inv ∧
      (ops.any (·.kind.hasInputs) = true → N.m = some m) ∧
      (ops.any (·.kind.hasInputs) = false → N.m = some 0) := by
  have hset : ∀ o ∈ ops, o.entries ≠ none := by
    intro o ho
    obtain ⟨E, hE, -⟩ := hcal o ho
    simp [hE]
  have hc : Consistent ops := by
    refine ⟨hne, ?_, ?_, ?_⟩
    · rw [filter_eq_nil_iff.mpr]
      · exact nodup_nil
      · intro o ho hn
        exact hset o ho (by simpa using hn)
    · intro o ho o' ho' d d' h1 h2
      rw [(hcal o ho).stateDim] at h1
      rw [(hcal o' ho').stateDim] at h2
      rw [← Option.some.inj h1, ← Option.some.inj h2]
    · intro o ho o' ho' i1 i2 d d' h1 h2
      rw [(hcal o ho).inputDim hr i1] at h1
      rw [(hcal o' ho').inputDim hr i2] at h2
      rw [← Option.some.inj h1, ← Option.some.inj h2]
  obtain ⟨N, hN⟩ := (C57_construct_iff plain l2 (ops.map OpArg.op) a).mpr
    ⟨ops, mapM_resolve_op ops, hc, fun ⟨o, ho, hn⟩ => absurd hn (hset o ho)⟩
  obtain ⟨c1, c2, c3, c4, c5, c6, c7⟩ := C57_construct_reports plain l2 _ a N hN
  have hops : N.ops = ops := by
    rw [mapM_resolve_op] at c1
    exact (Except.ok.inj c1).symm
  refine ⟨N, hN, hops, ?_, ?_, ?_, ?_, ?_, ?_⟩
  · obtain ⟨o, ho⟩ := exists_mem_of_ne_nil ops hne
    exact c3 o (by rw [hops]; exact ho) r (hcal o ho).stateDim
  · rw [c6, hops]; exact hset
  · intro s hs
    rw [c2 s hs]
    have := hset s.op (by rw [← hops]; exact mem_map.mpr ⟨s, hs, rfl⟩)
    cases hE : s.op.entries
    · exact absurd hE this
    · rfl
  · apply c7
    intro o ho E hE
    rw [hops] at ho
    obtain ⟨E', hE', hF⟩ := hcal o ho
    rw [hE] at hE'
    cases hE'
    have h2 := hF.2.1
    exact ⟨by rw [h2]; exact hr, m, by rw [h2]; exact hF⟩
  · intro h
    obtain ⟨o, ho, hi⟩ := any_eq_true.mp h
    exact c4 o (by rw [hops]; exact ho) hi m ((hcal o ho).inputDim hr hi)
  · intro h
    apply c5
    rw [hops]
    intro o ho
    simpa using any_eq_false.mp h o ho

theorem mapM_ok_forall₂ {α β : Type} (f : α → Except Err β) (R : α → β → Prop) (l : List α)
    (h : ∀ a ∈ l, ∃ b, f a = .ok b ∧ R a b) : ∃ l', l.mapM f = .ok l' ∧ Forall₂ R l l' := by
  induction l with
  | nil => exact ⟨[], rfl, Forall₂.nil⟩
  | cons a l ih =>
    obtain ⟨b, hb, hR⟩ := h a mem_cons_self
    obtain ⟨l', hl', hR'⟩ := ih (fun a ha => h a (mem_cons_of_mem _ ha))
    refine ⟨b :: l', ?_, Forall₂.cons hR hR'⟩
    rw [mapM_cons, hb, hl']
    rfl

/-! ### C18 -/

/-- **C18.** Galerkin projection of a trained model commutes with its right-hand side: for every
trial basis `V` and test basis `W`, every reduced state and input,
`(WᵀV) · reduced.rhs(q̂, u) = Wᵀ · model.rhs(V q̂, u)`, and `reduced.rhs(q̂, u) = Wᵀ · model.rhs(V q̂, u)`
if `WᵀV = I`. The reduced model has state dimension `r` and the same operator classes, and is trained. -/
theorem C18_galerkin_commutes {S : Type} [Field K] [CharZero K] [DecidableEq K]
    (solve : List (List K) → Mat K → Except Err (Mat K)) (plain : S) (l2 : Int → S)
    (M : Model K S) (n m r : Nat) (hM : M.Trained n m) (hr : 0 < r) (V W : List (List K))
    (hV : V.length = n) (hVr : ∀ row ∈ V, row.length = r) (hW : W.length = n)
    (hsolve : gram r W V ≠ eye r → SolvesExactly solve (gram r W V) r) :
    ∃ N, M.galerkin solve plain l2 r r V W = .ok N ∧ N.r = some r ∧
      N.ops.map Op.kind = M.ops.map Op.kind ∧ N.hasInputs = M.hasInputs ∧
      ((M.hasInputs = false → m = 0) → N.Trained r m) ∧
      ∀ (q : List K) (u : Option (List K)), q.length = r →
        (M.hasInputs = true → ∃ v, u = some v ∧ v.length = m) →
        ∃ y z, N.rhs q u = .ok y ∧ M.rhs (matVec V q) u = .ok z ∧
          matVec (gram r W V) y = matVec (transpose r W) z ∧
          (gram r W V = eye r → y = matVec (transpose r W) z) := by
  set R : Op K → Op K → Prop := fun o o' => o'.kind = o.kind ∧ o'.Cal r m ∧
    ∀ (q : List K) (u : Option (List K)), q.length = r → InputOK o.kind m u →
      matVec (gram r W V) (o'.val q u) = matVec (transpose r W) (o.val (matVec V q) u) ∧
      (gram r W V = eye r → o'.val q u = matVec (transpose r W) (o.val (matVec V q) u)) with hR
  have hstep : ∀ o ∈ M.ops, ∃ o', (match o.entries with
      | none => o.copy
      | some E => do return (⟨o.kind, some (← o.kind.galerkin solve E r r V W)⟩ : Op K)) = .ok o' ∧
      R o o' := by
    intro o ho
    obtain ⟨E, hE, hF⟩ := hM.cal o ho
    obtain ⟨F, hF1, hF2, hF3⟩ := C06_galerkin_commutes solve o.kind E n m r hM.pos hr hF V W hV hVr hW
      hsolve
    refine ⟨⟨o.kind, some F⟩, ?_, rfl, ⟨F, rfl, hF2⟩, ?_⟩
    · rw [hE]
      simp only [hF1]
      rfl
    · intro q u hq hu
      have hVq : (matVec V q).length = n := by rw [length_matVec, hV]
      -- inputs as a plain vector of length `m`
      have hvec : ∃ v : List K, v.length = m ∧ (∀ o' : Op K, o'.kind = o.kind → ∀ p : List K,
          o'.val p u = o'.val p (some v)) := by
        by_cases hi : o.kind.hasInputs = true
        · obtain ⟨v, rfl, hv⟩ := hu hi
          exact ⟨v, hv, fun _ _ _ => rfl⟩
        · refine ⟨replicate m 0, by simp, ?_⟩
          intro o' hk p
          exact o'.val_ignores_input (by rw [hk]; simpa using hi) _ _ _
      obtain ⟨v, hv, hval⟩ := hvec
      rw [hval ⟨o.kind, some F⟩ rfl, hval o rfl]
      obtain ⟨y, z, h1, h2, h3, h4⟩ := hF3 q v hq hv
      rw [applyV_eq _ _ _ _ hF2 q v hq hv] at h1
      rw [applyV_eq _ _ _ _ hF _ v hVq hv] at h2
      cases h1
      cases h2
      have e1 : (⟨o.kind, some F⟩ : Op K).val q (some v) = matVec F.rows (o.kind.dataCol q v) := rfl
      have e2 : o.val (matVec V q) (some v) = matVec E.rows (o.kind.dataCol (matVec V q) v) := by
        simp [Op.val, hE]
      rw [e1, e2]
      exact ⟨h3, h4⟩
  obtain ⟨ops, hops, hall⟩ := mapM_ok_forall₂ _ R M.ops hstep
  have hlen := hall.length_eq
  have hne : ops ≠ [] := by
    intro h; rw [h] at hlen
    exact hM.nonempty (by simpa using hlen)
  have hcal : ∀ o ∈ ops, o.Cal r m := by
    intro o ho
    obtain ⟨o', ho', hRo⟩ := forall₂_mem_right hall ho
    exact hRo.2.1
  obtain ⟨N, hN, hNops, hNr, -, -, hNi, hNm, hNm0⟩ := construct_set plain l2 ops r m hr hne hcal .none
  have hkinds : ops.map Op.kind = M.ops.map Op.kind := by
    clear hN hNops hcal hne hlen hops hstep hNm hNm0
    generalize M.ops = l at hall
    induction hall with
    | nil => rfl
    | cons hab _ ih => simp only [map_cons, hab.1, ih]
  have hany : ops.any (·.kind.hasInputs) = M.hasInputs := by
    rw [hM.inv.inputs]
    have := congrArg (fun l : List OpKind => l.any OpKind.hasInputs) hkinds
    simpa [any_map, Function.comp_def] using this
  refine ⟨N, ?_, hNr, by rw [hNops]; exact hkinds, by rw [hNi.inputs, hNops, hany], ?_, ?_⟩
  · exact (congrArg (fun x : Except Err (List (Op K)) =>
      x >>= fun ops => Model.construct plain l2 (ops.map OpArg.op) .none) hops).trans hN
  · intro h0
    refine ⟨hNi, hr, by rw [hNops]; exact hne, hNr, ?_, by rw [hNops]; exact hcal⟩
    by_cases hi : M.hasInputs = true
    · exact hNm (by rw [hany, hi])
    · rw [h0 (by simpa using hi)]
      exact hNm0 (by rw [hany]; simpa using hi)
  · intro q u hq hu
    have hok : ∀ o ∈ M.ops, InputOK o.kind m u := by
      intro o ho hi
      apply hu
      rw [hM.inv.inputs, any_eq_true]
      exact ⟨o, ho, hi⟩
    have hokN : ∀ o ∈ N.ops, InputOK o.kind m u := by
      rw [hNops]
      intro o ho
      obtain ⟨o', ho', hRo⟩ := forall₂_mem_right hall ho
      rw [hRo.1]
      exact hok o' ho'
    have hVq : (matVec V q).length = n := by rw [length_matVec, hV]
    refine ⟨_, _, rhs_eq N r m (by rw [hNops]; exact hcal) q u hq hokN,
      rhs_eq M n m hM.cal _ u hVq hok, ?_, ?_⟩
    · rw [hNops, rhsVal, rhsVal, matVec_foldl_vadd, matVec_foldl_vadd, matVec_zero, matVec_zero,
        map_map, map_map]
      · have hGl : (gram r W V).length = (transpose r W).length := by simp [gram, matMul]
        rw [hGl]
        congr 1
        clear hN hNops hcal hne hlen hops hstep hokN hNm hNm0 hkinds hany
        generalize M.ops = l at hall hok
        induction hall with
        | nil => rfl
        | @cons a b l l' hab _ ih =>
          simp only [map_cons, Function.comp_apply]
          rw [(hab.2.2 q u hq (hok a mem_cons_self)).1]
          congr 1
          exact ih (fun o ho => hok o (mem_cons_of_mem _ ho))
      · intro l hl
        obtain ⟨o, ho, rfl⟩ := mem_map.mp hl
        rw [(hM.cal o ho).length_val, length_replicate]
      · intro l hl
        obtain ⟨o, ho, rfl⟩ := mem_map.mp hl
        rw [(hcal o ho).length_val, length_replicate]
    · intro hI
      rw [hNops, rhsVal, rhsVal, matVec_foldl_vadd, matVec_zero, map_map]
      · have hGl : (transpose r W).length = r := by simp [transpose]
        rw [hGl]
        congr 1
        clear hN hNops hcal hne hlen hops hstep hokN hNm hNm0 hkinds hany
        generalize M.ops = l at hall hok
        induction hall with
        | nil => rfl
        | @cons a b l l' hab _ ih =>
          simp only [map_cons, Function.comp_apply]
          rw [(hab.2.2 q u hq (hok a mem_cons_self)).2 hI]
          congr 1
          exact ih (fun o ho => hok o (mem_cons_of_mem _ ho))
      · intro l hl
        obtain ⟨o, ho, rfl⟩ := mem_map.mp hl
        rw [(hM.cal o ho).length_val, length_replicate]

/-! ### C20 -/

theorem copy_good [Field K] (o : Op K) (h : o.Good) : o.copy = .ok o := by
  obtain ⟨k, E⟩ := o
  cases E with
  | none => rfl
  | some E =>
    obtain ⟨hpos, m, hF⟩ := h E rfl
    simp only [Op.copy]
    rw [setEntries_fits k E E.nrows m hpos hF]
    rfl

theorem mapM_copy [Field K] (ops : List (Op K)) (h : ∀ o ∈ ops, o.Good) : ops.mapM Op.copy = .ok ops := by
  induction ops with
  | nil => rfl
  | cons o ops ih =>
    rw [mapM_cons, copy_good o (h o mem_cons_self), ih (fun o ho => h o (mem_cons_of_mem _ ho))]
    rfl

/-- **C20, copying.** `model.copy()` of a trained model has the same operators and dimensions, hence
the same right-hand side and Jacobian, and it equals the original. -/
theorem C20_copy_same_model {S : Type} [Field K] [DecidableEq K] (plain : S) (l2 : Int → S)
    (M : Model K S) (r m : Nat) (hM : M.Trained r m) :
    ∃ N, M.copy plain l2 = .ok N ∧ N.ops = M.ops ∧ N.r = M.r ∧ (M.hasInputs = true → N.m = M.m) ∧
      N.hasInputs = M.hasInputs ∧ (∀ q u, N.rhs q u = M.rhs q u) ∧
      (∀ q u, N.jacobian q u = M.jacobian q u) ∧ (∀ q0 k u, N.predict q0 k u = M.predict q0 k u) := by
  have hgood : ∀ o ∈ M.ops, o.Good := by
    intro o ho
    obtain ⟨s, hs, rfl⟩ := mem_map.mp ho
    exact hM.inv.good s hs
  obtain ⟨N, hN, hops, hr, hint, hinf, hinv, hm1, hm0⟩ := construct_set plain l2 M.ops r m hM.pos
    hM.nonempty hM.cal (match M.solver with
    | some s => .obj s
    | none => .none)
  have hh : N.hasInputs = M.hasInputs := by rw [hinv.inputs, hops, hM.inv.inputs]
  have hrr : N.r = M.r := by rw [hr, hM.dim]
  have hrhs : ∀ q u, N.rhs q u = M.rhs q u := by
    intro q u; rw [Model.rhs, Model.rhs, hops]
  have hmm : M.hasInputs = true → N.m = M.m := by
    intro h
    rw [hm1 (by rw [← hM.inv.inputs]; exact h), hM.inputs]
  refine ⟨N, ?_, hops, hrr, hmm, hh, hrhs, ?_, ?_⟩
  · rw [Model.copy, mapM_copy _ hgood]
    exact hN
  · intro q u
    rw [Model.jacobian, Model.jacobian, hops, hrr]
  · intro q0 k u
    unfold Model.predict Model.checkTrained
    rw [hrr, hops, hh]
    cases hi : M.hasInputs
    · simp only [Bool.false_and, Bool.false_eq_true, if_false, hrhs]
    · rw [hmm hi]
      simp only [hrhs]

/-- **C20, negation for copies.** A copy of a trained model can never be fitted again: every call of
`fit` and `refit` on it returns without error and without any effect, whatever the data; and its
`operator_matrix` raises `ValueError`. -/
theorem C20_copy_cannot_be_refitted {S : Type} [Field K] (plain : S) (l2 : Int → S)
    (M : Model K S) (r m : Nat) (hM : M.Trained r m) (N : Model K S)
    (hN : M.copy plain l2 = .ok N) (I : SolverI K S) :
    (∀ states lhs inputs, N.fit I states lhs inputs = (N, .ok ())) ∧ N.refit I = (N, .ok ()) ∧
    N.operatorMatrix = .error .value := by
  have hgood : ∀ o ∈ M.ops, o.Good := by
    intro o ho
    obtain ⟨s, hs, rfl⟩ := mem_map.mp ho
    exact hM.inv.good s hs
  obtain ⟨N', hN', hops, hr, hint, hinf, hinv, hm1, hm0⟩ := construct_set plain l2 M.ops r m hM.pos
    hM.nonempty hM.cal (match M.solver with
    | some s => .obj s
    | none => .none)
  have : N = N' := by
    rw [Model.copy, mapM_copy _ hgood] at hN
    exact Except.ok.inj (hN.symm.trans hN')
  subst this
  refine ⟨?_, ?_, ?_⟩
  · intro states lhs inputs
    rw [Model.fit, if_pos hint]
  · rw [Model.refit, if_pos hint]
  · have htr : N.checkTrained = .ok () := by
      rw [Model.checkTrained, hr, if_neg (by simp), if_neg, if_neg]
      · rw [Bool.not_eq_true, any_eq_false]
        intro o ho
        rw [hops] at ho
        obtain ⟨E, hE, -⟩ := hM.cal o ho
        simp [hE]
      · cases hi : N.hasInputs
        · simp
        · rw [hm1 (by rw [← hops, ← hinv.inputs]; exact hi)]
          simp
    rw [Model.operatorMatrix, htr]
    have : N.slots.filter Slot.infer = [] := by
      rw [filter_eq_nil_iff]
      intro s hs; simp [hinf s hs]
    rw [this]
    rfl

/-- **C20, loading.** `Model.load` of a saved trained model has the same operators in the same roles
and the same dimensions, right-hand side, Jacobian, discrete predictions and operator matrix. -/
theorem C20_load_same_model {S : Type} [Field K] [DecidableEq K] (plain : S) (l2 : Int → S)
    (M : Model K S) (r m : Nat) (hM : M.Trained r m) :
    ∃ N, M.saveLoad plain l2 = .ok N ∧ N.slots = M.slots ∧ N.r = M.r ∧ (M.hasInputs = true → N.m = M.m) ∧
      N.hasInputs = M.hasInputs ∧ (∀ q u, N.rhs q u = M.rhs q u) ∧
      (∀ q u, N.jacobian q u = M.jacobian q u) ∧ (∀ q0 k u, N.predict q0 k u = M.predict q0 k u) ∧
      N.operatorMatrix = M.operatorMatrix ∧ N.intrusive = true := by
  have hgood : ∀ o ∈ M.ops, o.Good := by
    intro o ho
    obtain ⟨s, hs, rfl⟩ := mem_map.mp ho
    exact hM.inv.good s hs
  obtain ⟨N, hN, hops, hr, hint, hinf, hinv, hm1, hm0⟩ := construct_set plain l2 M.ops r m hM.pos
    hM.nonempty hM.cal (.none : SolverArg S)
  have hh : N.hasInputs = M.hasInputs := by rw [hinv.inputs, hops, hM.inv.inputs]
  have hslots : zipWith (fun s t : Slot K => { s with infer := t.infer }) N.slots M.slots = M.slots := by
    have h : N.slots.map Slot.op = M.slots.map Slot.op := hops
    generalize N.slots = a at h
    generalize M.slots = b at h
    induction b generalizing a with
    | nil => simp
    | cons t b ih =>
      cases a with
      | nil => simp at h
      | cons s a =>
        simp only [map_cons, cons.injEq] at h
        rw [zipWith_cons_cons, ih a h.2, h.1]
  set N1 : Model K S := { N with slots := M.slots } with hN1
  have h1 : N1.setStateDim r = (N1, .ok ()) := by
    rw [Model.setStateDim, if_neg]
    · rw [← hr]
    · rw [Bool.not_eq_true, any_eq_false]
      intro o ho
      have := (hM.cal o ho).stateDim
      simp [this]
  have hmm : M.hasInputs = true → N.m = some m := by
    intro h
    exact hm1 (by rw [← hM.inv.inputs]; exact h)
  have h2 : N1.hasInputs = true → N1.setInputDim m = (N1, .ok ()) := by
    intro hi
    rw [Model.setInputDim, if_neg (by simp [hi]), if_neg]
    · have : N1.m = some m := hmm (by rw [← hh]; exact hi)
      rw [← this]
    · rw [Bool.not_eq_true, any_eq_false]
      intro o ho
      by_cases hk : o.kind.hasInputs = true
      · simp [(hM.cal o ho).inputDim hM.pos hk]
      · simp [hk]
  have hload : M.saveLoad plain l2 = .ok N1 := by
    have e1 : M.r.getD 0 = r := by rw [hM.dim]; rfl
    have e2 : M.m.getD 0 = m := by rw [hM.inputs]; rfl
    rw [Model.saveLoad, mapM_copy _ hgood]
    simp only [bind, Except.bind, hN, hslots, e1, e2, if_neg (Nat.pos_iff_ne_zero.mp hM.pos)]
    rw [← hN1, h1]
    simp only
    split
    · rename_i hc
      rw [h2 hc.2]
    · rfl
  have hops' : N1.ops = M.ops := rfl
  have hrhs : ∀ q u, N1.rhs q u = M.rhs q u := by
    intro q u; rw [Model.rhs, Model.rhs, hops']
  have hrr : N1.r = M.r := by rw [hM.dim]; exact hr
  have hmm' : M.hasInputs = true → N1.m = M.m := by
    intro h; rw [hM.inputs]; exact hmm h
  have hhh : N1.hasInputs = M.hasInputs := hh
  have htr : N1.checkTrained = M.checkTrained := by
    unfold Model.checkTrained
    rw [hrr, hops', hhh]
    cases hi : M.hasInputs
    · rfl
    · rw [hmm' hi]
  refine ⟨N1, hload, rfl, hrr, hmm', hh, hrhs, ?_, ?_, ?_, hint⟩
  · intro q u
    rw [Model.jacobian, Model.jacobian, hops', hrr]
  · intro q0 k u
    unfold Model.predict
    rw [htr, hrr, hhh]
    cases hi : M.hasInputs
    · simp only [Bool.false_eq_true, if_false, hrhs]
    · rw [hmm' hi]
      simp only [hrhs]
  · rw [Model.operatorMatrix, Model.operatorMatrix, htr]

/-- **C20, negation for loaded models.** A loaded trained model can never be fitted again: `fit` and
`refit` return without error and without effect, whatever the data. -/
theorem C20_load_cannot_be_refitted {S : Type} [Field K] [DecidableEq K] (plain : S) (l2 : Int → S)
    (M : Model K S) (r m : Nat) (hM : M.Trained r m) (N : Model K S)
    (hN : M.saveLoad plain l2 = .ok N) (I : SolverI K S) :
    (∀ states lhs inputs, N.fit I states lhs inputs = (N, .ok ())) ∧ N.refit I = (N, .ok ()) := by
  obtain ⟨N', hN', -, -, -, -, -, -, -, -, hint⟩ := C20_load_same_model plain l2 M r m hM
  have : N = N' := Except.ok.inj (hN.symm.trans hN')
  subst this
  exact ⟨fun _ _ _ => by rw [Model.fit, if_pos hint], by rw [Model.refit, if_pos hint]⟩

/-- **C20, fitted models are trained.** Every successful `fit` produces a model to which the
preceding theorems apply: all operators set, with consistent dimensions. -/
theorem C20_fit_trains {S : Type} [Field K] (I : SolverI K S) (M : Model K S) (hM : M.Inv)
    (hint : M.intrusive = false) (states lhs : Arg K) (inputs : Option (Arg K)) (hs : states.WF)
    (hl : lhs.WF) (hin : ∀ a ∈ inputs, a.WF) (hr : 0 < (atleast2d states).1)
    (hI : I.Shaped (atleast2d states).1) (M' : Model K S)
    (hfit : M.fit I states lhs inputs = (M', .ok ())) :
    ∃ m, M'.Trained (atleast2d states).1 m ∧
      (M.hasInputs = true → ∃ a, inputs = some a ∧ (atleast2d a).1 = m) := by
  have hinv : M'.Inv := by
    have := fit_inv I M hM states lhs inputs hs hl hin hr hI
    rwa [hfit] at this
  obtain ⟨s, M1, Z, D, O, m, f1, f2, f3, f4, f5, f6, f7, f8, f9, f10, f11, f12, f13, f14, f15, f16,
    f17, f18, f19, f20, f21⟩ := fit_master I M hM hint states lhs inputs hs hl hin hI M' hfit
  obtain ⟨-, hst, -⟩ := extractLoop_spec (atleast2d states).1 m hr O f11 f12 M1.slots 0
    (by rw [f13, f14]; simp)
  have hsl : M'.slots = (extractLoop (atleast2d states).1 m O 0 M1.slots).1 := by rw [f20]
  rw [← hsl] at hst
  refine ⟨m, ⟨hinv, hr, ?_, by rw [f20]; exact f5, by rw [f20]; exact f6, ?_⟩, f7⟩
  · obtain ⟨t, ht, -⟩ := hinv.learn (by rw [f20]; exact f4.trans hint)
    intro h
    rw [Model.ops, map_eq_nil_iff] at h
    rw [h] at ht
    exact absurd ht not_mem_nil
  · intro o ho
    obtain ⟨sl, hsl', rfl⟩ := mem_map.mp ho
    obtain ⟨t, ht, t1, t2, t3, t4⟩ := forall₂_mem_right hst hsl'
    cases hi : t.infer
    · rw [t3 hi]
      have hk : t.op.entries.isSome := by
        rw [f2] at ht
        obtain ⟨t', ht', h1, h2, h3, h4⟩ := mem_clearSlots ht
        rw [h4 (h1 ▸ hi)]
        exact hM.known t' ht' (h1 ▸ hi)
      obtain ⟨E, hE⟩ := Option.isSome_iff_exists.mp hk
      exact f8 t.op (mem_map.mpr ⟨t, ht, rfl⟩) E hE
    · exact t4 hi

/-! ### Non-vacuity: a fitted model is trained, and fitting it again does change it -/

/-- The model of the examples after a first fit. -/
def exTrained : Model ℚ (Option (Nat × Nat)) := (exModel.fit exSolver exStates exLhs (some exInputs)).1

theorem exTrained_trained : exTrained.Trained 2 1 := by
  refine ⟨fit_inv _ _ exModel_inv _ _ _ (by unfold Arg.WF; decide +kernel)
    (by unfold Arg.WF; decide +kernel) (by unfold Arg.WF; decide +kernel) (by decide +kernel)
    (exSolver_shaped _), by decide, by decide +kernel, by decide +kernel,
    by decide +kernel, ?_⟩
  have h : exTrained.ops = [⟨.lin, some ⟨2, 2, [[1, 3], [2, 4]]⟩⟩, ⟨.const, some ⟨2, 1, [[3], [5]]⟩⟩,
      ⟨.inp, some ⟨2, 1, [[5], [6]]⟩⟩] := by decide +kernel
  rw [h]
  intro o ho
  simp only [mem_cons, not_mem_nil, or_false] at ho
  rcases ho with rfl | rfl | rfl <;>
    exact ⟨_, rfl, ⟨rfl, by decide⟩, rfl, rfl⟩

-- the original can be fitted again (here to two inputs), its copy and its reloaded version stay as they are
example : (exTrained.fit exSolver exStates exLhs (some (.mat 2 [[1, 2], [0, 0], [1, 1]]))).1.ops
    ≠ exTrained.ops := by decide +kernel
example : ((exTrained.copy none (fun _ => none)).map fun N =>
    (N.fit exSolver exStates exLhs (some (.mat 2 [[1, 2], [0, 0], [1, 1]]))).1.ops)
    = .ok exTrained.ops := by decide +kernel
example : ((exTrained.saveLoad none (fun _ => none)).map fun N =>
    (N.fit exSolver exStates exLhs (some (.mat 2 [[1, 2], [0, 0], [1, 1]]))).1.ops)
    = .ok exTrained.ops := by decide +kernel
example : (exTrained.galerkin (fun _ _ => .error .linalg) none (fun _ => none) 1 1 [[1], [2]]
    [[3], [-1]]).toOption.map (fun N => (N.ops.map Op.entries, N.r)) =
    some ([some ⟨1, 1, [[11]]⟩, some ⟨1, 1, [[4]]⟩, some ⟨1, 1, [[9]]⟩], some 1) := by decide +kernel

end Opinf
