import Verif.Lemmas.Recoord
import Verif.Props.Predict
import Verif.Props.ActAlike

/-!
# C119: without regularization, training does not depend on the coordinates of the states

Specification: the states and left-hand sides are multiplied by an invertible matrix.
-/

namespace Opinf

open List

variable {K : Type}

/-- Two trainings whose states and left-hand sides differ by the coordinate change `T`. The models have operators of the
same classes, the same of which are to be learned, and the known operators are expressed in the respective coordinates. -/
structure Recoordinated [Field K] {S S' : Type} (r m : Nat) (T : List (List K)) (t : Training K S) (t' : Training K S') :
    Prop where
  slots : t'.before.slots.map (fun s => (s.op.kind, s.infer)) = t.before.slots.map fun s => (s.op.kind, s.infer)
  count : (atleast2d t'.states).2.length = (atleast2d t.states).2.length
  states : ∀ j : Nat, j < (atleast2d t.states).2.length →
    (atleast2d t'.states).2.getD j [] = matVec T ((atleast2d t.states).2.getD j [])
  lhs : ∀ j : Nat, j < (atleast2d t.states).2.length →
    (atleast2d t'.lhs).2.getD j [] = matVec T ((atleast2d t.lhs).2.getD j [])
  inputs : t'.inputs = t.inputs
  known : ∀ q u, q.length = r → (∀ o ∈ t.before.ops, InputOK o.kind m u) →
    t'.before.knownPart.value (matVec T q) u = matVec T (t.before.knownPart.value q u)

/-- The right-hand sides correspond to each other at a state and input. -/
def Corresponds [Field K] {S S' : Type} (T : List (List K)) (M : Model K S) (M' : Model K S') (q : List K)
    (u : Option (List K)) : Prop :=
  ∃ y, M.rhs q u = .ok y ∧ M'.rhs (matVec T q) u = .ok (matVec T y)

section

variable [Field K] [LinearOrder K] [IsStrictOrderedRing K]

theorem recoord_core {S S' : Type} {r m : Nat} (hr : 0 < r) {T U : List (List K)} (hT : Inverts r T U) {t : Training K S}
    {t' : Training K S'} (hc : Recoordinated r m T t t') {O O' : Mat K} (h : t.Fitted r m (fun _ _ => 0) O)
    (h' : t'.Fitted r m (fun _ _ => 0) O') :
    (∀ x ∈ t.samples, Corresponds T t.after t'.after x.q x.u) ∧
      (t.Decided r m → ∀ q u, q.length = r → (∀ o ∈ t.before.ops, InputOK o.kind m u) →
        Corresponds T t.after t'.after q u) := by
  obtain ⟨c1, c2, c3, c4, c5, c6⟩ := hc
  have hinf : t'.before.toInfer = t.before.toInfer := by
    have e : ∀ l : List (Slot K), ((l.map fun s => (s.op.kind, s.infer)).filter Prod.snd).map Prod.fst =
        (l.filter Slot.infer).map fun s => s.op.kind := fun l => by rw [filter_map, map_map]; rfl
    rw [Model.toInfer, Model.toInfer, ← e, ← e, c1]
  have hkinds : t'.before.ops.map Op.kind = t.before.ops.map Op.kind := by
    have e : ∀ l : List (Slot K), (l.map fun s => (s.op.kind, s.infer)).map Prod.fst = (l.map Slot.op).map Op.kind :=
      fun l => by rw [map_map, map_map]; rfl
    rw [Model.ops, Model.ops, ← e, ← e, c1]
  have hok : ∀ u : Option (List K), (∀ o ∈ t.before.ops, InputOK o.kind m u) → ∀ o ∈ t'.before.ops, InputOK o.kind m u := by
    intro u hu o ho
    have : o.kind ∈ t.before.ops.map Op.kind := by rw [← hkinds]; exact mem_map_of_mem ho
    obtain ⟨p, hp, e⟩ := mem_map.1 this
    rw [← e]
    exact hu p hp
  have hw : t'.width r m = t.width r m := by rw [Training.width, hinf]; rfl
  have hf : ∀ q u, t'.features q u = t.features q u := fun q u => by rw [Training.features, hinf]; rfl
  obtain ⟨w, hwd⟩ : ∃ w, w = t.width r m := ⟨_, rfl⟩
  obtain ⟨L, hL, hLf⟩ := recoord_features t.before.toInfer (m := m) hr hT
  obtain ⟨Li, hLi, hLif⟩ := recoord_features t.before.toInfer (m := m) hr hT.symm
  rw [show (t.before.toInfer.map fun o => o.dim r m).sum = w from hwd.symm] at hL hLi
  have hTl : ∀ v : List K, (matVec T v).length = r := fun v => by rw [length_matVec, hT.isMat.1]
  have fT : ∀ q u, q.length = r → (∀ o ∈ t.before.ops, InputOK o.kind m u) →
      matVec L (t.features q u) = t.features (matVec T q) u := fun q u hq hu => hLf q u hq (toInfer_ok hu)
  have fU : ∀ q u, q.length = r → (∀ o ∈ t.before.ops, InputOK o.kind m u) →
      matVec Li (t.features (matVec T q) u) = t.features q u := fun q u hq hu => by
    have := hLif (matVec T q) u (hTl q) (toInfer_ok hu)
    rw [hT.left q hq] at this
    exact this
  have rO : O.rows.length = r := by rw [h.has.wf.1, h.has.nrows]
  have cO : ∀ a ∈ O.rows, a.length = w := fun a ha => by rw [h.has.wf.2 a ha, h.has.ncols, hwd]
  have cO' : ∀ a ∈ O'.rows, a.length = w := fun a ha => by rw [h'.has.wf.2 a ha, h'.has.ncols, hw, hwd]
  have rO' : O'.rows.length = r := by rw [h'.has.wf.1, h'.has.nrows]
  have mm : ∀ {a b : Nat} {A B : List (List K)}, IsMat a b A → (∀ x ∈ B, x.length = w) → IsMat a w (matMul w A B) := by
    intro a b A B hA hB
    refine ⟨by simp [matMul, hA.1], fun x hx => ?_⟩
    obtain ⟨y, _, rfl⟩ := mem_map.1 hx
    exact length_vecMat _ _ _ hB
  have hOL : IsMat r w (matMul w O.rows Li) := mm (b := w) ⟨rO, cO⟩ hLi.2
  have hP := mm hT.isMat hOL.2
  have pv : ∀ v, matVec (matMul w T (matMul w O.rows Li)) v = matVec T (matVec O.rows (matVec Li v)) := fun v => by
    rw [matVec_matMul _ _ _ _ hOL.2, matVec_matMul _ _ _ _ hLi.2]
  -- the samples
  obtain ⟨n, hn⟩ : ∃ n, n = (atleast2d t.states).2.length := ⟨_, rfl⟩
  have hmem : ∀ x ∈ t.samples, (⟨matVec T x.q, matVec T x.z, x.u⟩ : TrainSample K) ∈ t'.samples := by
    intro x hx
    rw [Training.samples, argSamples] at hx ⊢
    obtain ⟨j, hj, rfl⟩ := mem_map.1 hx
    refine mem_map.2 ⟨j, by rw [c2]; exact hj, ?_⟩
    rw [c3 j (mem_range.1 hj), c4 j (mem_range.1 hj), c5]
  have hsam : t'.samples = t.samples.map fun x => ⟨matVec T x.q, matVec T x.z, x.u⟩ := by
    rw [Training.samples, Training.samples, argSamples, argSamples, map_map, c2]
    refine map_congr_left fun j hj => ?_
    simp only [Function.comp_apply]
    rw [c3 j (mem_range.1 hj), c4 j (mem_range.1 hj), c5]
  -- the transported matrix satisfies the normal equations of the second training
  have tr : IsMat r r (transpose r T) := by
    refine ⟨by simp [transpose], fun a ha => ?_⟩
    obtain ⟨i, _, rfl⟩ := mem_map.1 ha
    simp [hT.isMat.1]
  have zw : ∀ A B : List (List K), (zipWith (fun _ _ : List K => (0 : K)) A B).sum = 0 := fun A B => by
    refine List.sum_eq_zero fun y hy => ?_
    obtain ⟨k, hk, rfl⟩ := getElem_of_mem hy
    simp
  obtain ⟨d1, -⟩ := C116_determined h' ⟨r, w, matMul w T (matMul w O.rows Li)⟩ hP rfl (by rw [hw, hwd])
    (fun H hH g1 g2 => by
      rw [hw, ← hwd] at g2
      have hHr : H.rows.length = r := by rw [hH.1, g1]
      have hHc : ∀ a ∈ H.rows, a.length = w := fun a ha => by rw [hH.2 a ha, g2]
      have hHL : IsMat r w (matMul w H.rows L) := mm (b := w) ⟨hHr, hHc⟩ hL.2
      have hQ := mm tr hHL.2
      have key := h.orthogonal ⟨r, w, matMul w (transpose r T) (matMul w H.rows L)⟩ hQ rfl hwd
      rw [zw] at key ⊢
      refine Eq.trans ?_ key
      rw [hsam, map_map]
      refine congrArg List.sum (map_congr_left fun x hx => ?_)
      obtain ⟨a1, a2, a3⟩ := h.has.samples x hx
      have k1 := (h.has.output _ _ a1 a3).2
      have hv := h.has.value hx
      simp only [Function.comp_apply]
      rw [hf, pv, fU x.q x.u a1 a3, c6 x.q x.u a1 a3,
        ← matVec_vadd T _ _ (by rw [length_matVec, rO, k1]), ← matVec_vsub T _ _ (by
          rw [length_vadd, length_matVec, rO, k1, a2, min_self]), ← fT x.q x.u a1 a3,
        ← matVec_matMul _ _ _ _ hL.2, ← hv.2.1, matVec_matMul _ _ _ _ hHL.2, dot_comm',
        matVec_transpose r T _ hT.isMat.2, dot_comm' (t.gap x), dot_vecMat r _ _ _ hT.isMat.2]
      rfl)
  have at_samples : ∀ x ∈ t.samples, matVec O'.rows (t.features (matVec T x.q) x.u) =
      matVec T (matVec O.rows (t.features x.q x.u)) := by
    intro x hx
    obtain ⟨a1, a2, a3⟩ := h.has.samples x hx
    have := d1 _ (hmem x hx)
    simp only at this
    rw [hf, pv, fU x.q x.u a1 a3] at this
    exact this.symm
  have out : ∀ q u, q.length = r → (∀ o ∈ t.before.ops, InputOK o.kind m u) →
      matVec O'.rows (t.features (matVec T q) u) = matVec T (matVec O.rows (t.features q u)) →
      Corresponds T t.after t'.after q u := by
    intro q u hq hu he
    obtain ⟨f1, f1'⟩ := h.has.output q u hq hu
    obtain ⟨f2, -⟩ := h'.has.output (matVec T q) u (hTl q) (hok u hu)
    refine ⟨_, f1, ?_⟩
    rw [f2, hf, he, c6 q u hq hu, matVec_vadd T _ _ (by rw [length_matVec, rO, f1'])]
  refine ⟨fun x hx => out x.q x.u (h.has.samples x hx).1 (h.has.samples x hx).2.2 (at_samples x hx), fun hdec q u hq hu =>
    out q u hq hu ?_⟩
  have hA : IsMat r w (matMul w O'.rows L) := mm (b := w) ⟨rO', cO'⟩ hL.2
  have hB : IsMat r w (matMul w T O.rows) := mm hT.isMat cO
  have hAB : matMul w O'.rows L = matMul w T O.rows := by
    refine ext_getElem (by rw [hA.1, hB.1]) fun i i1 i2 => ?_
    have l1 := hA.2 _ (getElem_mem i1)
    have l2 := hB.2 _ (getElem_mem i2)
    refine vsub_zero_mem (by rw [l1, l2]) (hdec _ (by rw [length_vsub, l1, l2, min_self, hwd]; rfl) fun x hx => ?_)
    obtain ⟨a1, a2, a3⟩ := h.has.samples x hx
    have e := at_samples x hx
    rw [← fT x.q x.u a1 a3, ← matVec_matMul _ _ _ _ hL.2, ← matVec_matMul _ _ _ _ cO] at e
    have e := congrArg (fun l => l.getD i 0) e
    simp only [getD_matVec] at e
    rw [Opinf.getD_eq_getElem _ [] i1, Opinf.getD_eq_getElem _ [] i2] at e
    rw [dot_vsub_left _ _ _ (by rw [l1, l2])]
    exact sub_eq_zero.2 e
  rw [← fT q u hq hu, ← matVec_matMul _ _ _ _ hL.2, hAB, matVec_matMul _ _ _ _ cO]

/-! ### Property theorems -/

/-- **C119.** Train a model without regularization, and train it again with all states and left-hand sides multiplied by an
invertible matrix `T`. The second model evaluated at `T q` is `T` times the first model evaluated at `q`: at all training
samples, and for all states and inputs if the data determine the operators. -/
theorem C119_coordinates (lstsq : Mat K → Mat K → Except Err (Mat K)) (hls : ∀ A B X, lstsq A B = .ok X → IsLstsq A B X)
    (t t' : Training K (Plain K)) (r m : Nat) (h : t.Done (plainSolver lstsq) r m) (h' : t'.Done (plainSolver lstsq) r m)
    (T U : List (List K)) (hT : Inverts r T U) (hc : Recoordinated r m T t t') :
    (∀ x ∈ t.samples, Corresponds T t.after t'.after x.q x.u) ∧
      (t.Decided r m → ∀ q u, q.length = r → (∀ o ∈ t.before.ops, InputOK o.kind m u) →
        Corresponds T t.after t'.after q u) := by
  obtain ⟨O, hO⟩ := C116_plain lstsq hls t r m h
  obtain ⟨O', hO'⟩ := C116_plain lstsq hls t' r m h'
  exact recoord_core h.pos hT hc hO hO'

theorem recoord_kinds {S S' : Type} {r m : Nat} {T : List (List K)} {t : Training K S} {t' : Training K S'}
    (hc : Recoordinated r m T t t') : t'.before.ops.map Op.kind = t.before.ops.map Op.kind := by
  have e : ∀ l : List (Slot K), (l.map fun s => (s.op.kind, s.infer)).map Prod.fst = (l.map Slot.op).map Op.kind :=
    fun l => by rw [map_map, map_map]; rfl
  rw [Model.ops, Model.ops, ← e, ← e, hc.slots]

theorem any_of_kinds {L L' : List (Op K)} (h : L'.map Op.kind = L.map Op.kind) :
    L'.any (·.kind.hasInputs) = L.any (·.kind.hasInputs) := by
  have e : ∀ l : List (Op K), l.any (·.kind.hasInputs) = (l.map Op.kind).any OpKind.hasInputs := fun l => by
    rw [any_map]; rfl
  rw [e, e, h]

/-- What is known about the trained model. -/
theorem done_trained {S : Type} {t : Training K S} {I : SolverI K S} {r m : Nat} (h : t.Done I r m) (hI : I.Shaped r) :
    t.after.Inv ∧ t.after.ops ≠ [] ∧ t.after.r = some r ∧ t.after.checkTrained = .ok () ∧
      t.after.ops.map Op.kind = t.before.ops.map Op.kind ∧ t.after.hasInputs = t.before.hasInputs ∧
      (t.after.hasInputs = true → t.after.m = some m) ∧ ∀ o ∈ t.after.ops, o.Cal r m := by
  obtain ⟨h1, h2, h3, h4, h5, rfl, h7, h8, h9⟩ := h
  obtain ⟨m', g1, g2⟩ := C20_fit_trains I t.before h1 h2 _ _ _ h3 h4 h5 h7 hI _ h9
  obtain ⟨e1, e2⟩ := fit_cal I t.before h1 h2 _ _ _ h3 h4 h5 h7 hI _ h9 m fun _ => h8
  have hi : t.after.hasInputs = t.before.hasInputs := by rw [g1.inv.inputs, h1.inputs, any_of_kinds e1]
  refine ⟨g1.inv, g1.nonempty, g1.dim, ?_, e1, hi, fun hin => ?_, e2⟩
  · have : t.after.ops.any (·.entries.isNone) = false := by
      rw [any_eq_false]
      intro o ho
      obtain ⟨E, hE, -⟩ := g1.cal o ho
      simp [hE]
    simp [Model.checkTrained, g1.dim, g1.inputs, this]
  · obtain ⟨a, ha, hm⟩ := g2 (by rw [← hi]; exact hin)
    rw [g1.inputs, ← hm, h8 a ha]

/-- **C119** (predictions). If the data determine the operators, the discrete-time prediction of the second model from
`T q₀` is `T` times the prediction of the first from `q₀`. -/
theorem C119_predict (lstsq : Mat K → Mat K → Except Err (Mat K)) (hls : ∀ A B X, lstsq A B = .ok X → IsLstsq A B X)
    (t t' : Training K (Plain K)) (r m : Nat) (h : t.Done (plainSolver lstsq) r m) (h' : t'.Done (plainSolver lstsq) r m)
    (T U : List (List K)) (hT : Inverts r T U) (hc : Recoordinated r m T t t') (hd : t.Decided r m) (q0 : List K) (n : Int)
    (inputs : PredInput K) (hin : ∀ a, inputs = .arr a → a.WF) (L : List (List K))
    (hL : t.after.predict q0 n inputs = .ok L) : t'.after.predict (matVec T q0) n inputs = .ok (L.map (matVec T)) := by
  have hsh : (plainSolver lstsq : SolverI K (Plain K)).Shaped r :=
    plainSolver_shaped lstsq (fun A B X h => ⟨(hls A B X h).wf, (hls A B X h).rows, (hls A B X h).cols⟩) _
  obtain ⟨a1, a2, a3, a4, a5, a6, a7, a8⟩ := done_trained h hsh
  obtain ⟨b1, b2, b3, b4, b5, b6, b7, b8⟩ := done_trained h' hsh
  have hkk := recoord_kinds hc
  have hi : t'.after.hasInputs = t.after.hasInputs := by
    rw [b6, a6, h.inv.inputs, h'.inv.inputs, any_of_kinds hkk]
  have hcor := (C119_coordinates lstsq hls t t' r m h h' T U hT hc).2 hd
  rw [C15_predict_iff] at hL ⊢
  obtain ⟨c1, c2, c3, c4, c5, c6, c7⟩ := hL
  rw [a3] at c2
  have hq0 : q0.length = r := Option.some.inj c2
  have hu : ∀ j : Nat, j + 1 < n.toNat → ∀ o ∈ t.after.ops, InputOK o.kind m (inputs.at t.after.hasInputs j) := by
    intro j hj o ho hio
    have hh : t.after.hasInputs = true := by
      rw [a1.inputs, any_eq_true]; exact ⟨o, ho, hio⟩
    have he := c4 hh
    rw [a7 hh] at he
    cases inputs with
    | arr a =>
      rw [hh]
      refine ⟨_, rfl, ?_⟩
      have hl : j < (atleast2d a).2.length := by have := he.2; omega
      rw [Opinf.getD_eq_getElem _ [] hl, hin a rfl _ (getElem_mem _)]
      exact Option.some.inj he.1
    | _ => exact he.elim
  have hlen : ∀ j : Nat, j < n.toNat → (L.getD j []).length = r := by
    intro j
    induction j with
    | zero => intro _; rw [c6, hq0]
    | succ j ih =>
      intro hj
      have hcal := c7 j hj
      rw [rhs_eq t.after r m a8 _ _ (ih (by omega)) (hu j hj)] at hcal
      rw [← Except.ok.inj hcal]
      exact length_rhsVal _ r m a8 _ _
  have hget : ∀ j : Nat, j < n.toNat → (L.map (matVec T)).getD j [] = matVec T (L.getD j []) := by
    intro j hj
    rw [Opinf.getD_eq_getElem _ [] (by rw [length_map, c5]; exact hj), Opinf.getD_eq_getElem _ [] (by rw [c5]; exact hj),
      getElem_map]
  refine ⟨b4, by rw [b3, length_matVec, hT.isMat.1], c3, fun hh => ?_, by rw [length_map, c5], ?_, fun j hj => ?_⟩
  · rw [b7 hh, ← a7 (hi ▸ hh)]
    exact c4 (hi ▸ hh)
  · rw [hget 0 (by omega), c6]
  · rw [hget j (by omega), hget (j + 1) hj, hi]
    obtain ⟨y, e1, e2⟩ := hcor (L.getD j []) (inputs.at t.after.hasInputs j) (hlen j (by omega)) (fun o ho => by
      have : o.kind ∈ t.after.ops.map Op.kind := by rw [a5]; exact mem_map_of_mem ho
      obtain ⟨p, hp, e⟩ := mem_map.1 this
      rw [← e]
      exact hu j hj p hp)
    rw [e2]
    rw [c7 j hj] at e1
    rw [Except.ok.inj e1]

omit [LinearOrder K] [IsStrictOrderedRing K] in
theorem cal_zero {o : Op K} {r m : Nat} (h : o.Cal r m) (hi : o.kind.hasInputs = false) : o.Cal r 0 := by
  obtain ⟨E, h1, h2, h3, h4⟩ := h
  exact ⟨E, h1, h2, h3, by rw [h4]; exact dim_ignores_input _ hi _ _ _⟩

/-- **C119** (projection). If the data determine the operators, projecting the second model back with trial basis `T` and
test basis `T⁻ᵀ` gives the first model: the same right-hand side for all states and inputs, and the same operators if their
classes are distinct. -/
theorem C119_galerkin (lstsq : Mat K → Mat K → Except Err (Mat K)) (hls : ∀ A B X, lstsq A B = .ok X → IsLstsq A B X)
    (solve : List (List K) → Mat K → Except Err (Mat K)) (plain : Plain K) (l2 : Int → Plain K)
    (t t' : Training K (Plain K)) (r m : Nat) (h : t.Done (plainSolver lstsq) r m) (h' : t'.Done (plainSolver lstsq) r m)
    (T U : List (List K)) (hT : Inverts r T U) (hc : Recoordinated r m T t t') (hd : t.Decided r m) :
    ∃ N, t'.after.galerkin solve plain l2 r r T (transpose r U) = .ok N ∧
      (∀ q u, q.length = r → (∀ o ∈ t.before.ops, InputOK o.kind m u) → N.rhs q u = t.after.rhs q u) ∧
      ((t.before.ops.map Op.kind).Nodup → N.ops = t.after.ops) := by
  have hsh : (plainSolver lstsq : SolverI K (Plain K)).Shaped r :=
    plainSolver_shaped lstsq (fun A B X h => ⟨(hls A B X h).wf, (hls A B X h).rows, (hls A B X h).cols⟩) _
  obtain ⟨a1, a2, a3, a4, a5, a6, a7, a8⟩ := done_trained h hsh
  obtain ⟨b1, b2, b3, b4, b5, b6, b7, b8⟩ := done_trained h' hsh
  have hkk := recoord_kinds hc
  have hi : t'.after.hasInputs = t.after.hasInputs := by
    rw [b6, a6, h.inv.inputs, h'.inv.inputs, any_of_kinds hkk]
  have hcor := (C119_coordinates lstsq hls t t' r m h h' T U hT hc).2 hd
  obtain ⟨m0, hm0, hm1⟩ : ∃ m0 : Nat, (t.after.hasInputs = true → m0 = m) ∧ (t.after.hasInputs = false → m0 = 0) := by
    cases t.after.hasInputs
    · exact ⟨0, by simp, fun _ => rfl⟩
    · exact ⟨m, fun _ => rfl, by simp⟩
  have hcal : ∀ L : List (Op K), L.any (·.kind.hasInputs) = t.after.hasInputs → (∀ o ∈ L, o.Cal r m) →
      ∀ o ∈ L, o.Cal r m0 := by
    intro L hany hL o ho
    cases hh : t.after.hasInputs with
    | true => rw [hm0 hh]; exact hL o ho
    | false =>
      rw [hm1 hh]
      rw [hh, any_eq_false] at hany
      exact cal_zero (hL o ho) (by simpa using hany o ho)
  have hb8 := hcal t'.after.ops (by rw [← b1.inputs, hi]) b8
  have ha8 := hcal t.after.ops (by rw [← a1.inputs]) a8
  have hg : gram r (transpose r U) T = eye r := recoord_gram hT
  have hW : (transpose r U).length = r := by simp [transpose]
  obtain ⟨N, n1, n2, n3, n4, n5, n6⟩ := C18_galerkin_commutes solve plain l2 { t'.after with m := some m0 } r m0 r
    ⟨⟨b1.good, b1.inputs, b1.known, b1.solver, b1.learn⟩, h.pos, b2, b3, rfl, hb8⟩ h.pos T (transpose r U) hT.isMat.1
    hT.isMat.2 hW fun hne => absurd hg hne
  have hN : N.Trained r m0 := n5 fun hh => hm1 (by rw [← hi]; exact hh)
  have same : ∀ q u, q.length = r → (∀ o ∈ t.before.ops, InputOK o.kind m u) → N.rhs q u = t.after.rhs q u := by
    intro q u hq hu
    obtain ⟨y, e1, e2⟩ := hcor q u hq hu
    obtain ⟨y', z, g1, g2, -, g4⟩ := n6 q u hq (fun hh => by
      have hh' : t.after.hasInputs = true := by rw [← hi]; exact hh
      rw [a1.inputs, any_eq_true] at hh'
      obtain ⟨o, ho, hio⟩ := hh'
      have : o.kind ∈ t.before.ops.map Op.kind := by rw [← a5]; exact mem_map_of_mem ho
      obtain ⟨p, hp, e⟩ := mem_map.1 this
      rw [hm0 (by rw [← hi]; exact hh)]
      exact hu p hp (by rw [e]; exact hio))
    have hz : z = matVec T y := Except.ok.inj (g2.symm.trans e2)
    have hy : y.length = r := by
      rw [rhs_eq t.after r m a8 q u hq (fun o ho => by
        have : o.kind ∈ t.before.ops.map Op.kind := by rw [← a5]; exact mem_map_of_mem ho
        obtain ⟨p, hp, e⟩ := mem_map.1 this
        rw [← e]
        exact hu p hp)] at e1
      rw [← Except.ok.inj e1]
      exact length_rhsVal _ r m a8 _ _
    rw [g1, e1, g4 hg, hz, transpose_twice hT.isMat' _ (by rw [length_matVec, hT.isMat.1]), hT.left y hy]
  have hkN : N.ops.map Op.kind = t.after.ops.map Op.kind := 
    n3.trans (show t'.after.ops.map Op.kind = _ by rw [b5, hkk, a5])
  refine ⟨N, n1, same, fun hnd => ?_⟩
  have : Infinite K := Infinite.of_injective (Nat.cast : ℕ → K) Nat.cast_injective
  refine sums_determine hN.cal ha8 hkN (by rw [hkN, a5]; exact hnd) fun q u hq hu => ?_
  have hin : ∀ o ∈ t.after.ops, InputOK o.kind m0 (some u) := fun o ho _ => ⟨u, rfl, hu⟩
  have hinN : ∀ o ∈ N.ops, InputOK o.kind m0 (some u) := fun o ho _ => ⟨u, rfl, hu⟩
  have e := same q (some u) hq (fun o ho hio => by
    have : o.kind ∈ t.after.ops.map Op.kind := by rw [a5]; exact mem_map_of_mem ho
    obtain ⟨p, hp, e⟩ := mem_map.1 this
    refine ⟨u, rfl, ?_⟩
    rw [hu]
    exact hm0 (by rw [a1.inputs, any_eq_true]; exact ⟨p, hp, by rw [e]; exact hio⟩))
  rw [rhs_eq N r m0 hN.cal q _ hq hinN, rhs_eq t.after r m0 ha8 q _ hq hin] at e
  exact Except.ok.inj e

end

/-- **C119** (models without known operators). If all operators of both models are to be learned, there is no condition on
known operators. -/
theorem C119_nothing_known {S S' : Type} [Field K] (M : Model K S) (M' : Model K S') (h : ∀ s ∈ M.slots, s.infer = true)
    (h' : ∀ s ∈ M'.slots, s.infer = true) {r : Nat} (T : List (List K)) (hT : IsMat r r T) (q : List K)
    (u : Option (List K)) (hq : q.length = r) :
    M'.knownPart.value (matVec T q) u = matVec T (M.knownPart.value q u) := by
  have key : ∀ {S : Type} (M : Model K S), (∀ s ∈ M.slots, s.infer = true) → ∀ q : List K,
      M.knownPart.value q u = replicate q.length 0 := by
    intro S M h q
    have h0 : M.knownPart.slots = [] := by
      simp only [Model.knownPart, filter_eq_nil_iff]
      intro s hs
      simp [h s hs]
    have hops : M.knownPart.ops = [] := by rw [Model.ops, h0]; rfl
    have : M.knownPart.rhs q u = .ok (replicate q.length 0) := by rw [Model.rhs, hops]; rfl
    rw [Model.value, this]
  rw [key M h, key M' h', length_matVec, hT.1, hq]
  refine ext_getElem (by simp [hT.1]) fun i h1 h2 => ?_
  simp [matVec, dot_comm', dot_zeros]

/-! ### Examples -/

/-- A least-squares routine for two problems that fit exactly. -/
def corLs (A B : Mat ℚ) : Except Err (Mat ℚ) :=
  if A = ⟨3, 2, [[1, 0], [0, 1], [1, 1]]⟩ ∧ B = ⟨3, 2, [[1, 3], [2, 4], [3, 7]]⟩ then .ok ⟨2, 2, [[1, 3], [2, 4]]⟩
  else if A = ⟨3, 2, [[1, 0], [1, 1], [2, 1]]⟩ ∧ B = ⟨3, 2, [[4, 3], [6, 4], [10, 7]]⟩ then .ok ⟨2, 2, [[4, 3], [2, 1]]⟩
  else .error .linalg

theorem exact_lstsq {A B X : Mat ℚ} (h1 : X.WF) (h2 : X.nrows = A.ncols) (h3 : X.ncols = B.ncols)
    (h : ∀ j : Nat, j < B.ncols → (col X.rows j).length = A.ncols ∧ sumSq (vsub (matVec A.rows (col X.rows j)) (col B.rows j)) = 0) :
    IsLstsq A B X :=
  ⟨h1, h2, h3, fun j hj => ⟨(h j hj).1, fun o' _ => by simp only; rw [(h j hj).2]; exact sumSq_nonneg _⟩⟩

theorem corLs_spec (A B X : Mat ℚ) (h : corLs A B = .ok X) : IsLstsq A B X := by
  unfold corLs at h
  split at h
  · rename_i hc
    obtain ⟨rfl, rfl⟩ := hc
    injection h with h
    subst h
    refine exact_lstsq (by decide) rfl rfl fun j hj => ?_
    match j, hj with
    | 0, _ => exact ⟨rfl, by decide +kernel⟩
    | 1, _ => exact ⟨rfl, by decide +kernel⟩
  · split at h
    · rename_i hc
      obtain ⟨rfl, rfl⟩ := hc
      injection h with h
      subst h
      refine exact_lstsq (by decide) rfl rfl fun j hj => ?_
      match j, hj with
      | 0, _ => exact ⟨rfl, by decide +kernel⟩
      | 1, _ => exact ⟨rfl, by decide +kernel⟩
    · cases h

/-- A model with a linear operator, and its training. -/
def corModel : Model ℚ (Plain ℚ) := ⟨[⟨⟨.lin, none⟩, true⟩], false, none, some 0, false, some ⟨none⟩⟩

def corT (q z : List (List ℚ)) : Training ℚ (Plain ℚ) where
  before := corModel
  states := .mat 2 q
  lhs := .mat 2 z
  inputs := none
  after := (corModel.fit (plainSolver corLs) (.mat 2 q) (.mat 2 z) none).1

theorem corModel_inv : corModel.Inv := by
  refine ⟨?_, rfl, ?_, fun _ => rfl, fun _ => ⟨⟨⟨.lin, none⟩, true⟩, by simp [corModel], rfl⟩⟩
  · intro s hs E hE
    simp only [corModel, mem_cons, not_mem_nil, or_false] at hs
    subst hs
    cases hE
  · intro s hs
    simp only [corModel, mem_cons, not_mem_nil, or_false] at hs
    subst hs
    simp

/-- The training in the first coordinates, and in coordinates in which the first is replaced by the sum of both. -/
def corA : Training ℚ (Plain ℚ) := corT [[1, 0], [0, 1], [1, 1]] [[1, 3], [2, 4], [3, 7]]
def corB : Training ℚ (Plain ℚ) := corT [[1, 0], [1, 1], [2, 1]] [[4, 3], [6, 4], [10, 7]]

theorem corA_done : corA.Done (plainSolver corLs) 2 0 :=
  ⟨corModel_inv, rfl, by unfold Arg.WF; decide +kernel, by unfold Arg.WF; decide +kernel, (fun a h => by cases h), rfl,
    by omega, (fun a h => by cases h),
    Prod.ext rfl (by
      change (corModel.fit (plainSolver corLs) (.mat 2 [[1, 0], [0, 1], [1, 1]]) (.mat 2 [[1, 3], [2, 4], [3, 7]]) none).2 = _
      decide +kernel)⟩

theorem corB_done : corB.Done (plainSolver corLs) 2 0 :=
  ⟨corModel_inv, rfl, by unfold Arg.WF; decide +kernel, by unfold Arg.WF; decide +kernel, (fun a h => by cases h), rfl,
    by omega, (fun a h => by cases h),
    Prod.ext rfl (by
      change (corModel.fit (plainSolver corLs) (.mat 2 [[1, 0], [1, 1], [2, 1]]) (.mat 2 [[4, 3], [6, 4], [10, 7]]) none).2 = _
      decide +kernel)⟩

theorem corA_decided : corA.Decided 2 0 := by
  intro v hv h
  obtain ⟨a, b, rfl⟩ : ∃ a b, v = [a, b] := by
    match v, hv with
    | [a, b], _ => exact ⟨a, b, rfl⟩
  have h0 := h ⟨[1, 0], [1, 3], none⟩ (by
    simp [Training.samples, argSamples, corA, corT, atleast2d, inputAt, range_succ])
  have h1 := h ⟨[0, 1], [2, 4], none⟩ (by
    simp [Training.samples, argSamples, corA, corT, atleast2d, inputAt, range_succ])
  simp [corA, corT, corModel, Model.toInfer, dataVector, OpKind.dataCol, dot] at h0 h1
  simp [h0, h1]

theorem cor_inverts : Inverts (K := ℚ) 2 [[1, 1], [0, 1]] [[1, -1], [0, 1]] := by
  refine ⟨⟨rfl, by simp⟩, ⟨rfl, by simp⟩, fun x hx => ?_, fun x hx => ?_⟩ <;>
  · match x, hx with
    | [a, b], _ => simp [matVec, dot]

theorem cor_recoordinated : Recoordinated 2 0 [[1, 1], [0, 1]] corA corB := by
  refine ⟨rfl, rfl, fun j hj => ?_, fun j hj => ?_, rfl, fun q u hq _ => ?_⟩
  · match j, hj with
    | 0, _ => decide +kernel
    | 1, _ => decide +kernel
    | 2, _ => decide +kernel
  · match j, hj with
    | 0, _ => decide +kernel
    | 1, _ => decide +kernel
    | 2, _ => decide +kernel
  · exact C119_nothing_known _ _ (by decide +kernel) (by decide +kernel) _ cor_inverts.isMat q u hq

-- all hypotheses of `C119_coordinates`, `C119_predict` and `C119_galerkin` hold for a change of coordinates that mixes states
example : corB.after.predict (matVec [[1, 1], [0, 1]] [2, 1]) 3 .none =
    .ok ([[2, 1], [4, 10], [24, 52]].map (matVec [[1, 1], [0, 1]])) :=
  C119_predict corLs corLs_spec corA corB 2 0 corA_done corB_done _ _ cor_inverts cor_recoordinated corA_decided [2, 1] 3 .none
    (fun a h => by cases h) [[2, 1], [4, 10], [24, 52]] (by decide +kernel)

example : corA.after.ops = [⟨.lin, some ⟨2, 2, [[1, 2], [3, 4]]⟩⟩] ∧ corB.after.ops = [⟨.lin, some ⟨2, 2, [[4, 2], [3, 1]]⟩⟩] := by
  constructor <;> decide +kernel

/-- The singular value decomposition of `1 × 1` matrices. -/
def corSvd (D : Mat ℚ) : Except Err (Svd ℚ) :=
  match D with
  | ⟨1, 1, [[a]]⟩ => .ok ⟨⟨1, 1, [[1]]⟩, [a], ⟨1, 1, [[1]]⟩⟩
  | _ => .error .linalg

theorem corSvd_spec (D : Mat ℚ) (u : Svd ℚ) (h : corSvd D = .ok u) : IsSVD D u := by
  unfold corSvd at h
  split at h
  · rename_i a
    injection h with h
    subst h
    refine ⟨⟨rfl, by simp⟩, ⟨rfl, by simp⟩, rfl, rfl, rfl, rfl, fun x hx => ?_, fun v w hv hw => ?_, fun v hv => ?_⟩
    · match x, hx with
      | [x], _ => simp [matVec, dot]
    · match v, w, hv, hw with
      | [v], [w], _, _ => simp [matVec, dot]
    · match v, hv with
      | [v], _ => simp [matVec, dot, vecMat, vadd, vsmul]
  · cases h

/-- A model with a linear operator and an `L2Solver` with regularizer 1, trained with one snapshot. -/
def corL2 (q z : ℚ) : Training ℚ (L2 ℚ ℚ) where
  before := ⟨[⟨⟨.lin, none⟩, true⟩], false, none, some 0, false, some ⟨some 1, none, none⟩⟩
  states := .mat 1 [[q]]
  lhs := .mat 1 [[z]]
  inputs := none
  after := (Model.fit (l2Solver corSvd) ⟨[⟨⟨.lin, none⟩, true⟩], false, none, some 0, false, some ⟨some 1, none, none⟩⟩
    (.mat 1 [[q]]) (.mat 1 [[z]]) none).1

/-- **C119** (where it ends). With regularization the result depends on the coordinates: measuring the state in half the
unit changes the learned operator. -/
theorem C119_regularization_depends :
    ∃ (svd : Mat ℚ → Except Err (Svd ℚ)) (t t' : Training ℚ (L2 ℚ ℚ)), (∀ D u, svd D = .ok u → IsSVD D u) ∧
      t.Done (l2Solver svd) 1 0 ∧ t'.Done (l2Solver svd) 1 0 ∧ Inverts (K := ℚ) 1 [[2]] [[1 / 2]] ∧
      Recoordinated 1 0 [[2]] t t' ∧ t.Decided 1 0 ∧ ∀ x ∈ t.samples, ¬ Corresponds [[2]] t.after t'.after x.q x.u := by
  have hinv : ∀ q z : ℚ, (corL2 q z).before.Inv := by
    intro q z
    refine ⟨?_, rfl, ?_, fun _ => rfl, fun _ => ⟨⟨⟨.lin, none⟩, true⟩, by simp [corL2], rfl⟩⟩
    · intro s hs E hE
      simp only [corL2, mem_cons, not_mem_nil, or_false] at hs
      subst hs
      cases hE
    · intro s hs
      simp only [corL2, mem_cons, not_mem_nil, or_false] at hs
      subst hs
      simp
  have hi : Inverts (K := ℚ) 1 [[2]] [[1 / 2]] := by
    refine ⟨⟨rfl, by simp⟩, ⟨rfl, by simp⟩, fun x hx => ?_, fun x hx => ?_⟩ <;>
    · match x, hx with
      | [a], _ => simp [matVec, dot]
  refine ⟨corSvd, corL2 1 1, corL2 2 2, corSvd_spec, ?_, ?_, hi, ?_, ?_, ?_⟩
  · exact ⟨hinv _ _, rfl, by unfold Arg.WF; decide +kernel, by unfold Arg.WF; decide +kernel, (fun a h => by cases h), rfl,
      by omega, (fun a h => by cases h), Prod.ext rfl (by
        change (Model.fit (l2Solver corSvd) (corL2 1 1).before (.mat 1 [[1]]) (.mat 1 [[1]]) none).2 = _
        decide +kernel)⟩
  · exact ⟨hinv _ _, rfl, by unfold Arg.WF; decide +kernel, by unfold Arg.WF; decide +kernel, (fun a h => by cases h), rfl,
      by omega, (fun a h => by cases h), Prod.ext rfl (by
        change (Model.fit (l2Solver corSvd) (corL2 2 2).before (.mat 1 [[2]]) (.mat 1 [[2]]) none).2 = _
        decide +kernel)⟩
  · refine ⟨rfl, rfl, fun j hj => ?_, fun j hj => ?_, rfl, fun q u hq _ =>
      C119_nothing_known _ _ (by decide +kernel) (by decide +kernel) _ hi.isMat q u hq⟩
    · match j, hj with
      | 0, _ => decide +kernel
    · match j, hj with
      | 0, _ => decide +kernel
  · intro v hv h
    obtain ⟨a, rfl⟩ : ∃ a, v = [a] := length_eq_one_iff.1 hv
    have h0 := h ⟨[1], [1], none⟩ (by simp [Training.samples, argSamples, corL2, atleast2d, inputAt, range_succ])
    simp [corL2, Model.toInfer, dataVector, OpKind.dataCol, dot] at h0
    simp [h0]
  · intro x hx
    have hs : (corL2 1 1).samples = [⟨[1], [1], none⟩] := rfl
    rw [hs, mem_singleton] at hx
    subst hx
    rintro ⟨y, h1, h2⟩
    have e1 : (corL2 1 1).after.rhs [1] none = .ok [1 / 2] := by decide +kernel
    have e2 : (corL2 2 2).after.rhs (matVec [[2]] [1]) none = .ok [8 / 5] := by decide +kernel
    rw [e1] at h1
    rw [e2, ← Except.ok.inj h1] at h2
    exact absurd (Except.ok.inj h2) (by decide +kernel)

end Opinf
