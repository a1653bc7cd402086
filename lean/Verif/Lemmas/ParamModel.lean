import Verif.Model.ParamModel
import Verif.Props.Interp
import Verif.Props.ModelCopy

/-!
# Parametric models: evaluation and the known operators
-/

namespace Opinf

open List

variable {K S : Type}

/-- At `mu` the operator evaluates to `op`, of the right shape. -/
def POp.EvalsTo [Semiring K] (lib : ItpLib K) (o : POp K) (mu : Par K) (r m : Nat) (op : Op K) : Prop :=
  (o.evaluate lib mu).2 = .ok op ∧ op.kind = o.kind ∧ op.Cal r m

/-- The value of an operator at one parameter value, state and input. -/
def POp.val [CommSemiring K] (lib : ItpLib K) (o : POp K) (mu : Par K) (q : List K)
    (u : Option (List K)) : List K :=
  match (o.evaluate lib mu).2 with
  | .error _ => []
  | .ok op => op.val q u

theorem POp.apply_eq [CommSemiring K] (lib : ItpLib K) (o : POp K) (mu : Par K) (s : Arg K)
    (u : Option (Arg K)) (op : Op K) (h : (o.evaluate lib mu).2 = .ok op) :
    o.apply lib mu s u = op.apply s u := by
  cases o with
  | np o => simp only [POp.evaluate, Except.ok.injEq] at h; subst h; rfl
  | aff a =>
    simp only [POp.evaluate] at h
    simp only [POp.apply, Affine.apply, h]
  | itp t =>
    simp only [POp.evaluate] at h
    simp only [POp.apply, Interp.apply, h]

theorem POp.EvalsTo.val_eq [CommSemiring K] {lib : ItpLib K} {o : POp K} {mu : Par K} {r m : Nat}
    {op : Op K} (h : o.EvalsTo lib mu r m op) (q : List K) (u : Option (List K)) :
    o.val lib mu q u = op.val q u := by
  simp only [POp.val, h.1]

theorem POp.EvalsTo.yields [CommSemiring K] {lib : ItpLib K} {o : POp K} {mu : Par K} {r m : Nat}
    {op : Op K} (h : o.EvalsTo lib mu r m op) (q : List K) (u : Option (List K)) (hq : q.length = r)
    (hu : InputOK o.kind m u) :
    Yields (o.apply lib mu (.vec q) (u.map .vec)) (o.val lib mu q u) ∧ (o.val lib mu q u).length = r := by
  obtain ⟨a, h1, h2, h3⟩ := Op.apply_vec h.2.2 q u hq (by rw [h.2.1]; exact hu)
  refine ⟨⟨a, by rw [POp.apply_eq lib o mu _ _ op h.1, h1], h2, by rw [h3, h.val_eq]⟩, ?_⟩
  rw [h.val_eq, h.2.2.length_val]

/-! ### Evaluating a model -/

theorem frozen_dims (ops : List (Op K)) (r m : Nat) (hr : 0 < r) (hne : ops ≠ [])
    (hcal : ∀ o ∈ ops, o.Cal r m) :
    ∃ N, frozen S ops = .ok N ∧ N.ops = ops ∧ N.r = some r ∧ N.intrusive = true ∧
      N.hasInputs = ops.any (·.kind.hasInputs) ∧
      N.m = some (if ops.any (·.kind.hasInputs) then m else 0) := by
  have hset : ∀ o ∈ ops, o.entries ≠ none := by
    intro o ho
    obtain ⟨E, hE, -⟩ := hcal o ho
    simp [hE]
  have hnil : ops.filter (·.entries.isNone) = [] := by
    rw [filter_eq_nil_iff]
    intro o ho hn
    exact hset o ho (by simpa using hn)
  have hc : Consistent ops := by
    refine ⟨hne, ?_, ?_, ?_⟩
    · rw [hnil]; exact nodup_nil
    · intro o ho o' ho' d d' h1 h2
      rw [(hcal o ho).stateDim] at h1
      rw [(hcal o' ho').stateDim] at h2
      rw [← Option.some.inj h1, ← Option.some.inj h2]
    · intro o ho o' ho' i1 i2 d d' h1 h2
      rw [(hcal o ho).inputDim hr i1] at h1
      rw [(hcal o' ho').inputDim hr i2] at h2
      rw [← Option.some.inj h1, ← Option.some.inj h2]
  obtain ⟨r', m', h1, h2, h3⟩ := (setOperators_spec (Model.blank K S) (ops.map OpArg.op) ops
    (mapM_resolve_op ops)).1 hc
  have hr' : r' = some r := by
    obtain ⟨o, ho⟩ := exists_mem_of_ne_nil ops hne
    obtain ⟨E, hE, hF⟩ := hcal o ho
    rw [stateDimCheck_ok h1 o ho E hE, hF.2.1]
  refine ⟨_, by unfold frozen; rw [h3], ?_, hr', ?_, rfl, ?_⟩
  · simp [Model.ops, Function.comp_def]
  · simp only [hnil, isEmpty_nil]
  · show m' = _
    by_cases hi : ops.any (·.kind.hasInputs) = true
    · obtain ⟨o, ho, hoi⟩ := any_eq_true.mp hi
      rw [(inputDimCheck_ok h2).1 o ho hoi m ((hcal o ho).inputDim hr hoi), if_pos hi]
    · rw [(inputDimCheck_ok h2).2 (by simpa using hi), if_neg hi]

theorem frozen_ok (ops : List (Op K)) (r m : Nat) (hr : 0 < r) (hne : ops ≠ [])
    (hcal : ∀ o ∈ ops, o.Cal r m) :
    ∃ N, frozen S ops = .ok N ∧ N.ops = ops ∧ N.r = some r ∧ N.intrusive = true ∧
      N.hasInputs = ops.any (·.kind.hasInputs) ∧ N.m.isSome := by
  obtain ⟨N, h1, h2, h3, h4, h5, h6⟩ := frozen_dims (S := S) ops r m hr hne hcal
  exact ⟨N, h1, h2, h3, h4, h5, by rw [h6]; rfl⟩

theorem evalOps_ok [Semiring K] (lib : ItpLib K) (mu : Par K) (r m : Nat) (slots : List (PSlot K))
    (h : ∀ s ∈ slots, ∃ op, s.op.EvalsTo lib mu r m op) :
    ∃ slots' ops, evalOps lib mu slots = (slots', .ok ops) ∧
      Forall₂ (fun s op => s.op.EvalsTo lib mu r m op) slots ops ∧
      slots'.map PSlot.infer = slots.map PSlot.infer := by
  induction slots with
  | nil => exact ⟨[], [], rfl, .nil, rfl⟩
  | cons s ss ih =>
    obtain ⟨op, hop⟩ := h s mem_cons_self
    obtain ⟨ss', ops, h1, h2, h3⟩ := ih fun s' hs' => h s' (mem_cons_of_mem _ hs')
    obtain ⟨o', ho'⟩ : ∃ o', s.op.evaluate lib mu = (o', .ok op) := ⟨_, Prod.ext rfl hop.1⟩
    refine ⟨{ s with op := o' } :: ss', op :: ops, ?_, .cons hop h2, ?_⟩
    · simp only [evalOps, ho', h1]
    · simp [h3]

/-- The sum of the values of some operators, each applied at `mu` to `(q, u)`. -/
def SumAt [CommSemiring K] (lib : ItpLib K) (ops : List (POp K)) (mu : Par K) (q : List K)
    (u : Option (List K)) (r : Nat) (w : List K) : Prop :=
  ∃ ws, Forall₂ (fun (o : POp K) v => Yields (o.apply lib mu (.vec q) (u.map .vec)) v ∧ v.length = r) ops ws ∧
    w = ws.foldl vadd (replicate r 0)

theorem SumAt.of_evals [CommSemiring K] {lib : ItpLib K} {ops : List (POp K)} {mu : Par K} {r m : Nat}
    (h : ∀ o ∈ ops, ∃ op, o.EvalsTo lib mu r m op) (q : List K) (u : Option (List K))
    (hq : q.length = r) (hu : ∀ o ∈ ops, InputOK o.kind m u) :
    SumAt lib ops mu q u r ((ops.map fun o => o.val lib mu q u).foldl vadd (replicate r 0)) := by
  refine ⟨_, ?_, rfl⟩
  rw [forall₂_map_right_iff, forall₂_same]
  intro o ho
  obtain ⟨op, hop⟩ := h o ho
  exact hop.yields q u hq (hu o ho)

theorem SumAt.unique [CommSemiring K] {lib : ItpLib K} {ops : List (POp K)} {mu : Par K} {r : Nat}
    {q : List K} {u : Option (List K)} {w w' : List K} (h : SumAt lib ops mu q u r w)
    (h' : SumAt lib ops mu q u r w') : w = w' := by
  obtain ⟨ws, h1, rfl⟩ := h
  obtain ⟨ws', h2, rfl⟩ := h'
  congr 1
  induction h1 generalizing ws' with
  | nil => cases h2; rfl
  | cons ha _ ih =>
    cases h2 with
    | cons hb h2 => rw [ha.1.unique hb.1, ih _ h2]

theorem getD_sumAt [CommSemiring K] {lib : ItpLib K} {ops : List (POp K)} {mu : Par K} {r m : Nat}
    (h : ∀ o ∈ ops, ∃ op, o.EvalsTo lib mu r m op) (q : List K) (u : Option (List K)) (i : Nat) :
    ((ops.map fun o => o.val lib mu q u).foldl vadd (replicate r 0)).getD i 0
      = (ops.map fun o => (o.val lib mu q u).getD i 0).sum := by
  rw [getD_foldl_vadd, map_map]
  · have : (replicate r (0 : K)).getD i 0 = 0 := by
      simp only [getD_eq_getElem?_getD, getElem?_replicate]; split <;> rfl
    rw [this, zero_add]; rfl
  · intro l hl
    obtain ⟨o, ho, rfl⟩ := mem_map.mp hl
    obtain ⟨op, hop⟩ := h o ho
    rw [hop.val_eq, hop.2.2.length_val, length_replicate]

theorem length_sumAt [CommSemiring K] {lib : ItpLib K} {ops : List (POp K)} {mu : Par K} {r m : Nat}
    (h : ∀ o ∈ ops, ∃ op, o.EvalsTo lib mu r m op) (q : List K) (u : Option (List K)) :
    ((ops.map fun o => o.val lib mu q u).foldl vadd (replicate r 0)).length = r := by
  rw [length_foldl_vadd, length_replicate]
  intro l hl
  obtain ⟨o, ho, rfl⟩ := mem_map.mp hl
  obtain ⟨op, hop⟩ := h o ho
  rw [hop.val_eq, hop.2.2.length_val, length_replicate]

/-- The right-hand side of a parametric model. -/
theorem PModel.rhs_sum [CommSemiring K] (lib : ItpLib K) (M : PModel K S) (mu : Par K) (r m : Nat)
    (hr : 0 < r) (hne : M.slots ≠ []) (h : ∀ o ∈ M.ops, ∃ op, o.EvalsTo lib mu r m op) (q : List K)
    (u : Option (List K)) (hq : q.length = r) (hu : ∀ o ∈ M.ops, InputOK o.kind m u) :
    ∃ N ops, (M.evaluate lib mu).2 = .ok N ∧ N.ops = ops ∧ N.r = some r ∧ N.m.isSome ∧
      N.hasInputs = ops.any (·.kind.hasInputs) ∧
      Forall₂ (fun o op => o.EvalsTo lib mu r m op) M.ops ops ∧
      (M.rhs lib mu q u).2 = N.rhs q u ∧
      (M.rhs lib mu q u).2
        = .ok ((M.ops.map fun o => o.val lib mu q u).foldl vadd (replicate r 0)) := by
  obtain ⟨slots', ops, h1, h2, -⟩ := evalOps_ok lib mu r m M.slots
    (fun s hs => h s.op (mem_map.mpr ⟨s, hs, rfl⟩))
  have h2' : Forall₂ (fun o op => POp.EvalsTo lib o mu r m op) M.ops ops := by
    rw [PModel.ops, forall₂_map_left_iff]; exact h2
  have hcal : ∀ op ∈ ops, op.Cal r m := by
    intro op hop
    obtain ⟨o, -, ho⟩ := forall₂_mem_right h2' hop
    exact ho.2.2
  have hne' : ops ≠ [] := by
    rintro rfl
    exact hne (forall₂_nil_right_iff.mp h2)
  obtain ⟨N, hN, n1, n2, -, n4, n5⟩ := frozen_ok (S := S) ops r m hr hne' hcal
  have hev : (M.evaluate lib mu).2 = .ok N := by
    simp only [PModel.evaluate, h1, hN]
  have hrhs : (M.rhs lib mu q u).2 = N.rhs q u := by
    simp only [PModel.rhs, hev]
  refine ⟨N, ops, hev, n1, n2, n5, n4, h2', hrhs, ?_⟩
  rw [hrhs, rhs_eq N r m (by rw [n1]; exact hcal) q u hq (by
    rw [n1]
    intro op hop
    obtain ⟨o, ho, hoe⟩ := forall₂_mem_right h2' hop
    rw [hoe.2.1]; exact hu o ho), n1, rhsVal]
  congr 2
  clear hrhs hev hN n1 hcal hne' h1 h2 n2 n4 n5
  generalize M.ops = os at h2'
  induction h2' with
  | nil => rfl
  | cons ha _ ih => rw [map_cons, map_cons, ha.val_eq, ih]

/-! ### Subtracting the known operators -/

/-- One data set has the right shapes. -/
def PSet.OK (r m : Nat) (hasIn : Bool) (x : PSet K) : Prop :=
  x.n = r ∧ (∀ q ∈ x.states, q.length = r) ∧
  (∀ U ∈ x.inputs, U.1 = m ∧ U.2.length = x.states.length ∧ ∀ u ∈ U.2, u.length = m) ∧
  (hasIn = true → x.inputs.isSome = true)

theorem PSet.OK.dataOK {r m : Nat} {hasIn : Bool} {o : OpKind} (ho : o.hasInputs = true → hasIn = true)
    {data : List (PSet K)} (h : ∀ x ∈ data, x.OK r m hasIn) : DataOK o r m (data.map PSet.triple) := by
  intro y hy
  obtain ⟨x, hx, rfl⟩ := mem_map.mp hy
  obtain ⟨-, h2, h3, h4⟩ := h x hx
  refine ⟨h2, ?_, ?_⟩
  · intro U hU
    simp only [PSet.triple] at hU
    obtain ⟨V, hV, rfl⟩ := Option.mem_map.mp hU
    exact (h3 V hV).2
  · intro hi
    simp only [PSet.triple, Option.isSome_map]
    exact h4 (ho hi)

theorem Op.apply_set [CommSemiring K] {o : Op K} {r m : Nat} (h : o.Cal r m) {hasIn : Bool}
    (ho : o.kind.hasInputs = true → hasIn = true) {x : PSet K} (hx : x.OK r m hasIn) :
    o.apply (.mat x.n x.states) (x.inputs.map fun U => .mat U.1 U.2)
      = .ok (.mat r ((dataSamples [x.triple]).map fun y => o.val y.2.1 y.2.2)) := by
  obtain ⟨mu, n, Q, U⟩ := x
  obtain ⟨h1, h2, h3, h4⟩ := hx
  simp only at h1 h2 h3 h4
  subst h1
  cases U with
  | none =>
    have hi : o.kind.hasInputs = false := by
      cases hh : o.kind.hasInputs with
      | false => rfl
      | true => have := h4 (ho hh); simp at this
    rw [Op.apply_snapshots h Q (replicate Q.length []) _ h2 (by simp) (by rw [hi]; simp)]
    congr 2
    simp only [dataSamples, PSet.triple, flatMap_cons, flatMap_nil, append_nil, Option.map_none, map_map]
    have : zipWith (fun q u => o.val q (some u)) Q (replicate Q.length ([] : List K))
        = Q.map fun q => o.val q none := by
      rw [show (fun q u => o.val q (some u)) = fun q (_ : List K) => o.val q none from by
        funext q u; exact o.val_ignores_input hi q _ _]
      exact zipWith_left_eq_map _ _ _ (by simp)
    rw [this]; rfl
  | some V =>
    obtain ⟨v1, v2, v3⟩ := h3 V rfl
    rw [Op.apply_snapshots h Q V.2 _ h2 v2 (fun _ => ⟨by simp [v1], v3⟩)]
    congr 2
    simp [dataSamples, PSet.triple, zip, map_zipWith]

theorem dataSamples_length {r m : Nat} {hasIn : Bool} {x : PSet K} (hx : x.OK r m hasIn) :
    (dataSamples [x.triple]).length = x.states.length := by
  obtain ⟨mu, n, Q, U⟩ := x
  cases U with
  | none => simp [dataSamples, PSet.triple]
  | some V =>
    have := (hx.2.2.1 V rfl).2.1
    simp only [dataSamples, PSet.triple, flatMap_cons, flatMap_nil, append_nil, Option.map_some, length_map,
      length_zip]
    simp only at this
    omega

theorem subKnownAt_spec [CommRing K] (lib : ItpLib K) (o : POp K) (r m : Nat) (hasIn : Bool)
    (hi : o.kind.hasInputs = true → hasIn = true) (data : List (PSet K))
    (hd : ∀ x ∈ data, x.OK r m hasIn) (he : ∀ x ∈ data, ∃ op, o.EvalsTo lib x.mu r m op)
    (lhs : List (List (List K))) (hl : Forall₂ (fun (x : PSet K) L => L.length = x.states.length) data lhs) :
    ∃ Z, subKnownAt lib o data lhs = .ok Z ∧
      Forall₂ (fun (x : PSet K) L => L.length = x.states.length) data Z ∧
      Z.flatten = zipWith vsub lhs.flatten
        ((dataSamples (data.map PSet.triple)).map fun y => o.val lib y.1 y.2.1 y.2.2) := by
  induction hl with
  | nil => exact ⟨[], rfl, .nil, by simp [dataSamples]⟩
  | @cons x L data lhs hxL _ ih =>
    obtain ⟨Z, h1, h2, h3⟩ := ih (fun x hx => hd x (mem_cons_of_mem _ hx))
      (fun x hx => he x (mem_cons_of_mem _ hx))
    obtain ⟨op, hop⟩ := he x mem_cons_self
    have hx := hd x mem_cons_self
    have hlen : (dataSamples [x.triple]).length = x.states.length := dataSamples_length hx
    have hap : o.apply lib x.mu (.mat x.n x.states) (x.inputs.map fun U => .mat U.1 U.2)
        = .ok (.mat r ((dataSamples [x.triple]).map fun y => op.val y.2.1 y.2.2)) := by
      rw [POp.apply_eq lib o x.mu _ _ op hop.1]
      exact Op.apply_set hop.2.2 (by rw [hop.2.1]; exact hi) hx
    have hsub : subArr x.n L (.mat r ((dataSamples [x.triple]).map fun y => op.val y.2.1 y.2.2))
        = .ok (zipWith vsub L ((dataSamples [x.triple]).map fun y => op.val y.2.1 y.2.2)) := by
      rw [subArr, if_pos ⟨hx.1.symm, by rw [length_map, hlen, hxL]⟩]
    have hval : (dataSamples [x.triple]).map (fun y => op.val y.2.1 y.2.2)
        = (dataSamples [x.triple]).map fun y => o.val lib y.1 y.2.1 y.2.2 := by
      apply map_congr_left
      intro y hy
      obtain ⟨-, -, -, z, hz, hzy⟩ := mem_samples (o := o.kind) (r := r) (m := m)
        (PSet.OK.dataOK (data := [x]) hi (fun z hz => by rw [mem_singleton.mp hz]; exact hx)) hy
      rw [map_singleton, mem_singleton] at hz
      subst hz
      rw [← hzy]
      exact (hop.val_eq _ _).symm
    refine ⟨zipWith vsub L ((dataSamples [x.triple]).map fun y => op.val y.2.1 y.2.2) :: Z, ?_,
      .cons ?_ h2, ?_⟩
    · simp only [subKnownAt, hap, hsub, h1]
    · rw [length_zipWith, length_map, hlen, hxL, Nat.min_self]
    · rw [flatten_cons, flatten_cons, map_cons, samples_cons x.triple (data.map PSet.triple), map_append, hval,
        h3, zipWith_append (by rw [length_map, hlen]; exact hxL)]

theorem flatten_length_samples {r m : Nat} {hasIn : Bool} {data : List (PSet K)}
    (hd : ∀ x ∈ data, x.OK r m hasIn) {lhs : List (List (List K))}
    (hl : Forall₂ (fun (x : PSet K) L => L.length = x.states.length) data lhs) :
    lhs.flatten.length = (dataSamples (data.map PSet.triple)).length := by
  induction hl with
  | nil => rfl
  | @cons x L data lhs hxL _ ih =>
    rw [flatten_cons, length_append, map_cons, samples_cons, length_append,
      ih (fun x hx => hd x (mem_cons_of_mem _ hx)), hxL, dataSamples_length (hd x mem_cons_self)]

theorem pSubKnown_spec [CommRing K] (lib : ItpLib K) (r m : Nat) (hasIn : Bool) (data : List (PSet K))
    (hd : ∀ x ∈ data, x.OK r m hasIn) (slots : List (PSlot K))
    (hi : ∀ s ∈ slots, s.op.kind.hasInputs = true → hasIn = true)
    (he : ∀ s ∈ slots, s.infer = false → ∀ x ∈ data, ∃ op, s.op.EvalsTo lib x.mu r m op)
    (lhs : List (List (List K))) (hl : Forall₂ (fun (x : PSet K) L => L.length = x.states.length) data lhs)
    (hlr : ∀ z ∈ lhs.flatten, z.length = r) :
    ∃ Z, pSubKnown lib data slots lhs = .ok Z ∧
      Forall₂ (fun (x : PSet K) L => L.length = x.states.length) data Z ∧
      (∀ z ∈ Z.flatten, z.length = r) ∧
      ∀ (j : Nat) (y : Par K × List K × Option (List K)),
        (dataSamples (data.map PSet.triple))[j]? = some y →
        ∃ l z, lhs.flatten[j]? = some l ∧ Z.flatten[j]? = some z ∧
          ∀ i, z.getD i 0 = l.getD i 0
            - ((slots.filter fun s => !s.infer).map fun s => (s.op.val lib y.1 y.2.1 y.2.2).getD i 0).sum := by
  induction slots generalizing lhs with
  | nil =>
    refine ⟨lhs, rfl, hl, hlr, ?_⟩
    intro j y hy
    have hj : j < lhs.flatten.length := by
      rw [flatten_length_samples hd hl]
      exact (List.getElem?_eq_some_iff.mp hy).1
    exact ⟨_, _, getElem?_eq_getElem hj, getElem?_eq_getElem hj, by simp⟩
  | cons s ss ih =>
    have ih' := ih (fun s' hs' => hi s' (mem_cons_of_mem _ hs'))
      (fun s' hs' => he s' (mem_cons_of_mem _ hs'))
    cases hs : s.infer with
    | true =>
      obtain ⟨Z, h1, h2, h3, h4⟩ := ih' lhs hl hlr
      refine ⟨Z, by rw [pSubKnown, if_pos hs]; exact h1, h2, h3, ?_⟩
      intro j y hy
      rw [filter_cons_of_neg (by simp [hs])]
      exact h4 j y hy
    | false =>
      have hes := he s mem_cons_self hs
      obtain ⟨Z1, a1, a2, a3⟩ := subKnownAt_spec lib s.op r m hasIn (hi s mem_cons_self) data hd hes lhs hl
      have hvlen : ∀ y ∈ dataSamples (data.map PSet.triple), (s.op.val lib y.1 y.2.1 y.2.2).length = r := by
        intro y hy
        obtain ⟨-, -, -, z, hz, hzy⟩ := mem_samples (o := s.op.kind) (r := r) (m := m)
          (PSet.OK.dataOK (hi s mem_cons_self) hd) hy
        obtain ⟨x, hx, rfl⟩ := mem_map.mp hz
        obtain ⟨op, hop⟩ := hes x hx
        have hmu : x.mu = y.1 := hzy
        rw [← hmu, hop.val_eq, hop.2.2.length_val]
      have a4 : ∀ z ∈ Z1.flatten, z.length = r := by
        intro z hz
        rw [a3] at hz
        obtain ⟨l, v, hlv, rfl⟩ : ∃ l v, (l, v) ∈ zip lhs.flatten ((dataSamples (data.map PSet.triple)).map
            fun y => s.op.val lib y.1 y.2.1 y.2.2) ∧ vsub l v = z := by
          rw [← map_uncurry_zip_eq_zipWith] at hz
          obtain ⟨p, hp, rfl⟩ := mem_map.mp hz
          exact ⟨p.1, p.2, hp, rfl⟩
        obtain ⟨h1, h2⟩ := of_mem_zip hlv
        obtain ⟨y, hy, rfl⟩ := mem_map.mp h2
        rw [length_vsub, hlr l h1, hvlen y hy, Nat.min_self]
      obtain ⟨Z, h1, h2, h3, h4⟩ := ih' Z1 a2 a4
      refine ⟨Z, by rw [pSubKnown, if_neg (by simp [hs]), a1]; exact h1, h2, h3, ?_⟩
      intro j y hy
      obtain ⟨l1, z, b1, b2, b3⟩ := h4 j y hy
      have hj : j < lhs.flatten.length := by
        rw [flatten_length_samples hd hl]
        exact (List.getElem?_eq_some_iff.mp hy).1
      refine ⟨_, z, getElem?_eq_getElem hj, b2, ?_⟩
      intro i
      rw [filter_cons_of_pos (by simp [hs]), map_cons, sum_cons, b3 i]
      have hl1 : l1 = vsub lhs.flatten[j] (s.op.val lib y.1 y.2.1 y.2.2) := by
        rw [a3, getElem?_zipWith, getElem?_eq_getElem hj, getElem?_map, hy] at b1
        simpa using b1.symm
      rw [hl1, getD_vsub _ _ (by
        rw [hlr _ (getElem_mem _), hvlen y (mem_of_getElem? hy)])]
      ring

end Opinf
