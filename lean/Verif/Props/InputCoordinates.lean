import Verif.Lemmas.InputChange

/-!
# C130: without regularization, training does not depend on the coordinates of the inputs

Specification: every input `u` is replaced by `B u + e` with an invertible matrix `B` (`affineInput`).
-/

namespace Opinf

open List

variable {K : Type}

/-- Two trainings: the samples of the second are those of the first with `B u + e` instead of the input `u`. The models have
operators of the same classes, the same of which are to be learned, and the known operators are expressed in the respective
coordinates. -/
structure InputsChanged [Field K] {S S' : Type} (r m : Nat) (B : List (List K)) (e : List K) (t : Training K S)
    (t' : Training K S') : Prop where
  slots : t'.before.slots.map (fun s => (s.op.kind, s.infer)) = t.before.slots.map fun s => (s.op.kind, s.infer)
  samples : t'.samples = t.samples.map fun x => ⟨x.q, x.z, affineInput B e x.u⟩
  known : ∀ q u, q.length = r → (∀ o ∈ t.before.ops, InputOK o.kind m u) →
    t'.before.knownPart.value q (affineInput B e u) = t.before.knownPart.value q u

/-- The right-hand side of the second model with the input `B u + e` is that of the first model with the input `u`. -/
def RespondsAlike [Field K] {S S' : Type} (B : List (List K)) (e : List K) (M : Model K S) (M' : Model K S') (q : List K)
    (u : Option (List K)) : Prop :=
  ∃ y, M.rhs q u = .ok y ∧ M'.rhs q (affineInput B e u) = .ok y

/-- The inputs of a prediction in the new coordinates. -/
def changedInputs [Semiring K] (B : List (List K)) (e : List K) : PredInput K → PredInput K
  | .arr a => .arr (.mat (atleast2d a).1 ((atleast2d a).2.map (affineMap B e)))
  | inputs => inputs

section

variable [Field K] [LinearOrder K] [IsStrictOrderedRing K]

omit [LinearOrder K] [IsStrictOrderedRing K] in
theorem changed_kinds {S S' : Type} {r m : Nat} {B : List (List K)} {e : List K} {t : Training K S} {t' : Training K S'}
    (hc : InputsChanged r m B e t t') : t'.before.ops.map Op.kind = t.before.ops.map Op.kind := by
  have e : ∀ l : List (Slot K), (l.map fun s => (s.op.kind, s.infer)).map Prod.fst = (l.map Slot.op).map Op.kind :=
    fun l => by rw [map_map, map_map]; rfl
  rw [Model.ops, Model.ops, ← e, ← e, hc.slots]

theorem input_core {S S' : Type} {r m : Nat} {B U : List (List K)} (hB : Inverts m B U) {e : List K}
    (he : e.length = m) {t : Training K S} {t' : Training K S'} (hk : e = replicate m 0 ∨ InputComplete t.before.toInfer)
    (hc : InputsChanged r m B e t t') {O O' : Mat K} (h : t.Fitted r m (fun _ _ => 0) O)
    (h' : t'.Fitted r m (fun _ _ => 0) O') :
    (∀ x ∈ t.samples, RespondsAlike B e t.after t'.after x.q x.u) ∧
      (t.Decided r m → ∀ q u, q.length = r → (∀ o ∈ t.before.ops, InputOK o.kind m u) →
        RespondsAlike B e t.after t'.after q u) := by
  have hkinds := changed_kinds hc
  obtain ⟨c1, hsam, c6⟩ := hc
  have hinf : t'.before.toInfer = t.before.toInfer := by
    have e : ∀ l : List (Slot K), ((l.map fun s => (s.op.kind, s.infer)).filter Prod.snd).map Prod.fst =
        (l.filter Slot.infer).map fun s => s.op.kind := fun l => by rw [filter_map, map_map]; rfl
    rw [Model.toInfer, Model.toInfer, ← e, ← e, c1]
  have hok0 : ∀ u : Option (List K), (∀ o ∈ t.before.ops, InputOK o.kind m u) →
      ∀ o ∈ t.before.ops, InputOK o.kind m (affineInput B e u) := fun u hu o ho => affineInput_ok hB.isMat.1 he (hu o ho)
  have hok : ∀ u : Option (List K), (∀ o ∈ t.before.ops, InputOK o.kind m u) → ∀ o ∈ t'.before.ops, InputOK o.kind m u := by
    intro u hu o ho
    have : o.kind ∈ t.before.ops.map Op.kind := by rw [← hkinds]; exact mem_map_of_mem ho
    obtain ⟨p, hp, e⟩ := mem_map.1 this
    rw [← e]
    exact hu p hp
  have hw : t'.width r m = t.width r m := by rw [Training.width, hinf]; rfl
  have hf : ∀ q u, t'.features q u = t.features q u := fun q u => by rw [Training.features, hinf]; rfl
  obtain ⟨w, hwd⟩ : ∃ w, w = t.width r m := ⟨_, rfl⟩
  have hwe : (t.before.toInfer.map fun o => o.dim r m).sum = w := hwd.symm
  have rO : O.rows.length = r := by rw [h.has.wf.1, h.has.nrows]
  have cO : ∀ a ∈ O.rows, a.length = w := fun a ha => by rw [h.has.wf.2 a ha, h.has.ncols, hwd]
  have cO' : ∀ a ∈ O'.rows, a.length = w := fun a ha => by rw [h'.has.wf.2 a ha, h'.has.ncols, hw, hwd]
  have rO' : O'.rows.length = r := by rw [h'.has.wf.1, h'.has.nrows]
  have mm : ∀ {a b : Nat} {A C : List (List K)}, IsMat a b A → (∀ x ∈ C, x.length = w) → IsMat a w (matMul w A C) := by
    intro a b A C hA hC
    refine ⟨by simp [matMul, hA.1], fun x hx => ?_⟩
    obtain ⟨y, _, rfl⟩ := mem_map.1 hx
    exact length_vecMat _ _ _ hC
  obtain ⟨L, hL, hLf⟩ := input_features (kinds := t.before.toInfer) (r := r) hB.isMat he hk
  have hk' : (matVec U e).map (-·) = replicate m 0 ∨ InputComplete t.before.toInfer := by
    refine hk.imp_left fun h0 => ?_
    rw [h0]
    refine ext_getElem (by rw [length_map, length_matVec, hB.isMat'.1, length_replicate]) fun i i1 i2 => ?_
    simp [matVec, dot_comm' _ (replicate m (0 : K)), dot_zeros]
  obtain ⟨Li, hLi, hLif⟩ := input_features (kinds := t.before.toInfer) (r := r) hB.isMat' (e := (matVec U e).map (-·))
    (by rw [length_map, length_matVec, hB.isMat'.1]) hk'
  rw [hwe] at hL hLi
  have fT : ∀ q u, q.length = r → (∀ o ∈ t.before.ops, InputOK o.kind m u) →
      matVec L (t.features q u) = t.features q (affineInput B e u) := fun q u hq hu => hLf q u hq (toInfer_ok hu)
  -- the data at `u` from those at `B u + e`
  have back : ∀ q u, q.length = r → (∀ o ∈ t.before.ops, InputOK o.kind m u) →
      matVec Li (t.features q (affineInput B e u)) = t.features q u := by
    intro q u hq hu
    refine (hLif q _ hq (toInfer_ok (hok0 u hu))).trans ?_
    by_cases hin : ∃ o ∈ t.before.toInfer, o.hasInputs = true
    · obtain ⟨o, ho, hi⟩ := hin
      obtain ⟨v, rfl, hv⟩ := toInfer_ok hu o ho hi
      show dataVector _ q (affineMap U _ (affineMap B e v)) = dataVector _ q v
      rw [affineInput_inverse hB he hv]
    · refine flatMap_congr fun o ho => ?_
      exact dataCol_no_input o (by
        cases hi : o.hasInputs with
        | false => rfl
        | true => exact absurd ⟨o, ho, hi⟩ hin) q _ _
  have hP : IsMat r w (matMul w O.rows Li) := mm (b := w) ⟨rO, cO⟩ hLi.2
  have fP : ∀ q u, q.length = r → (∀ o ∈ t.before.ops, InputOK o.kind m u) →
      matVec (matMul w O.rows Li) (t.features q (affineInput B e u)) = matVec O.rows (t.features q u) := fun q u hq hu => by
    rw [matVec_matMul _ _ _ _ hLi.2, back q u hq hu]
  have zw : ∀ A C : List (List K), (zipWith (fun _ _ : List K => (0 : K)) A C).sum = 0 := fun A C => by
    refine List.sum_eq_zero fun y hy => ?_
    obtain ⟨k, hk, rfl⟩ := getElem_of_mem hy
    simp
  obtain ⟨d1, -⟩ := C116_determined h' ⟨r, w, matMul w O.rows Li⟩ hP rfl (by rw [hw, hwd])
    (fun H hH g1 g2 => by
      rw [hw, ← hwd] at g2
      have hHr : H.rows.length = r := by rw [hH.1, g1]
      have hHc : ∀ a ∈ H.rows, a.length = w := fun a ha => by rw [hH.2 a ha, g2]
      have hHL : IsMat r w (matMul w H.rows L) := mm (b := w) ⟨hHr, hHc⟩ hL.2
      have key := h.orthogonal ⟨r, w, matMul w H.rows L⟩ hHL rfl hwd
      rw [zw] at key ⊢
      refine Eq.trans ?_ key
      rw [hsam, map_map]
      refine congrArg List.sum (map_congr_left fun x hx => ?_)
      obtain ⟨a1, a2, a3⟩ := h.has.samples x hx
      have hv := h.has.value hx
      simp only [Function.comp_apply]
      rw [hf, fP x.q x.u a1 a3, c6 x.q x.u a1 a3, ← fT x.q x.u a1 a3, ← matVec_matMul _ _ _ _ hL.2, ← hv.2.1]
      rfl)
  have at_samples : ∀ x ∈ t.samples, matVec O'.rows (t.features x.q (affineInput B e x.u)) =
      matVec O.rows (t.features x.q x.u) := by
    intro x hx
    obtain ⟨a1, a2, a3⟩ := h.has.samples x hx
    have := d1 ⟨x.q, x.z, affineInput B e x.u⟩ (by rw [hsam]; exact mem_map.2 ⟨x, hx, rfl⟩)
    simp only at this
    rw [hf, fP x.q x.u a1 a3] at this
    exact this.symm
  have out : ∀ q u, q.length = r → (∀ o ∈ t.before.ops, InputOK o.kind m u) →
      matVec O'.rows (t.features q (affineInput B e u)) = matVec O.rows (t.features q u) →
      RespondsAlike B e t.after t'.after q u := by
    intro q u hq hu hE
    obtain ⟨f1, -⟩ := h.has.output q u hq hu
    obtain ⟨f2, -⟩ := h'.has.output q (affineInput B e u) hq (hok _ (hok0 u hu))
    exact ⟨_, f1, by rw [f2, hf, hE, c6 q u hq hu]⟩
  refine ⟨fun x hx => out x.q x.u (h.has.samples x hx).1 (h.has.samples x hx).2.2 (at_samples x hx), fun hdec q u hq hu =>
    out q u hq hu ?_⟩
  have hA : IsMat r w (matMul w O'.rows L) := mm (b := w) ⟨rO', cO'⟩ hL.2
  have hAB : matMul w O'.rows L = O.rows := by
    refine ext_getElem (by rw [hA.1, rO]) fun i i1 i2 => ?_
    have l1 := hA.2 _ (getElem_mem i1)
    have l2 := cO _ (getElem_mem i2)
    refine vsub_zero_mem (by rw [l1, l2]) (hdec _ (by rw [length_vsub, l1, l2, min_self, hwd]; rfl) fun x hx => ?_)
    obtain ⟨a1, a2, a3⟩ := h.has.samples x hx
    have E := at_samples x hx
    rw [← fT x.q x.u a1 a3, ← matVec_matMul _ _ _ _ hL.2] at E
    have E := congrArg (fun l => l.getD i 0) E
    simp only [getD_matVec] at E
    rw [Opinf.getD_eq_getElem _ [] i1, Opinf.getD_eq_getElem _ [] i2] at E
    rw [dot_vsub_left _ _ _ (by rw [l1, l2])]
    exact sub_eq_zero.2 E
  rw [← fT q u hq hu, ← matVec_matMul _ _ _ _ hL.2, hAB]

/-! ### Property theorems -/

/-- **C130.** Train a model without regularization, and train it again with `B u + e` instead of every input `u`, for an
invertible matrix `B`. If `e` is not zero, assume that the constant is learned if an input operator is, and that a linear
operator is learned if a state-input operator is. The second model with the input `B u + e` is the first model with the input
`u`: at all training samples, and for all states and inputs if the data determine the operators. -/
theorem C130_inputs (lstsq : Mat K → Mat K → Except Err (Mat K)) (hls : ∀ A B X, lstsq A B = .ok X → IsLstsq A B X)
    (t t' : Training K (Plain K)) (r m : Nat) (h : t.Done (plainSolver lstsq) r m) (h' : t'.Done (plainSolver lstsq) r m)
    (B U : List (List K)) (hB : Inverts m B U) (e : List K) (he : e.length = m)
    (hk : e = replicate m 0 ∨ InputComplete t.before.toInfer) (hc : InputsChanged r m B e t t') :
    (∀ x ∈ t.samples, RespondsAlike B e t.after t'.after x.q x.u) ∧
      (t.Decided r m → ∀ q u, q.length = r → (∀ o ∈ t.before.ops, InputOK o.kind m u) →
        RespondsAlike B e t.after t'.after q u) := by
  obtain ⟨O, hO⟩ := C116_plain lstsq hls t r m h
  obtain ⟨O', hO'⟩ := C116_plain lstsq hls t' r m h'
  exact input_core hB he hk hc hO hO'

/-- **C130** (predictions). If the data determine the operators, the second model predicts with the inputs in the new
coordinates what the first one predicts. -/
theorem C130_predict (lstsq : Mat K → Mat K → Except Err (Mat K)) (hls : ∀ A B X, lstsq A B = .ok X → IsLstsq A B X)
    (t t' : Training K (Plain K)) (r m : Nat) (h : t.Done (plainSolver lstsq) r m) (h' : t'.Done (plainSolver lstsq) r m)
    (B U : List (List K)) (hB : Inverts m B U) (e : List K) (he : e.length = m)
    (hk : e = replicate m 0 ∨ InputComplete t.before.toInfer) (hc : InputsChanged r m B e t t') (hd : t.Decided r m)
    (q0 : List K) (n : Int) (inputs : PredInput K) (hin : ∀ a, inputs = .arr a → a.WF) (L : List (List K))
    (hL : t.after.predict q0 n inputs = .ok L) : t'.after.predict q0 n (changedInputs B e inputs) = .ok L := by
  have hsh : (plainSolver lstsq : SolverI K (Plain K)).Shaped r :=
    plainSolver_shaped lstsq (fun A B X h => ⟨(hls A B X h).wf, (hls A B X h).rows, (hls A B X h).cols⟩) _
  obtain ⟨a1, a2, a3, a4, a5, a6, a7, a8⟩ := done_trained h hsh
  obtain ⟨b1, b2, b3, b4, b5, b6, b7, b8⟩ := done_trained h' hsh
  have hi : t'.after.hasInputs = t.after.hasInputs := by
    rw [b6, a6, h.inv.inputs, h'.inv.inputs, any_of_kinds (changed_kinds hc)]
  have hcor := (C130_inputs lstsq hls t t' r m h h' B U hB e he hk hc).2 hd
  obtain ⟨-, hlen⟩ := predicted_lengths lstsq hls t r m h q0 n inputs hin L hL
  rw [C15_predict_iff] at hL ⊢
  obtain ⟨c1, c2, c3, c4, c5, c6, c7⟩ := hL
  rw [a3] at c2
  refine ⟨b4, by rw [b3]; exact c2, c3, fun hh => ?_, c5, c6, fun j hj => ?_⟩
  · have := c4 (hi ▸ hh)
    rw [b7 hh, ← a7 (hi ▸ hh)]
    cases inputs with
    | arr a => exact ⟨this.1, by simpa [changedInputs, atleast2d] using this.2⟩
    | _ => exact this.elim
  · have hu : ∀ o ∈ t.after.ops, InputOK o.kind m (inputs.at t.after.hasInputs j) := by
      intro o ho hio
      have hh : t.after.hasInputs = true := by
        rw [a1.inputs, any_eq_true]; exact ⟨o, ho, hio⟩
      have hE := c4 hh
      rw [a7 hh] at hE
      cases inputs with
      | arr a =>
        rw [hh]
        refine ⟨_, rfl, ?_⟩
        have hl : j < (atleast2d a).2.length := by have := hE.2; omega
        rw [Opinf.getD_eq_getElem _ [] hl, hin a rfl _ (getElem_mem _)]
        exact Option.some.inj hE.1
      | _ => exact hE.elim
    have hat : (changedInputs B e inputs).at t'.after.hasInputs j = affineInput B e (inputs.at t.after.hasInputs j) := by
      rw [hi]
      cases hh : t.after.hasInputs with
      | false => cases inputs <;> rfl
      | true =>
        have hE := c4 hh
        cases inputs with
        | arr a =>
          have hl : j < (atleast2d a).2.length := by have := hE.2; omega
          show some (((atleast2d a).2.map (affineMap B e)).getD j []) = some (affineMap B e ((atleast2d a).2.getD j []))
          rw [Opinf.getD_eq_getElem _ [] (by rw [length_map]; exact hl), Opinf.getD_eq_getElem _ [] hl, getElem_map]
        | _ => exact hE.elim
    obtain ⟨y, e1, e2⟩ := hcor (L.getD j []) (inputs.at t.after.hasInputs j) (by
      have hl : j < L.length := by rw [c5]; omega
      rw [Opinf.getD_eq_getElem _ [] hl]
      exact hlen _ (getElem_mem hl)) (fun o ho => by
      have : o.kind ∈ t.after.ops.map Op.kind := by rw [a5]; exact mem_map_of_mem ho
      obtain ⟨p, hp, E⟩ := mem_map.1 this
      rw [← E]
      exact hu p hp)
    rw [hat, e2]
    rw [c7 j hj] at e1
    rw [Except.ok.inj e1]

end

/-- **C130** (models without known operators). If all operators of both models are to be learned, there is no condition on
known operators. -/
theorem C130_nothing_known {S S' : Type} [Field K] (M : Model K S) (M' : Model K S') (h : ∀ s ∈ M.slots, s.infer = true)
    (h' : ∀ s ∈ M'.slots, s.infer = true) (q : List K) (u u' : Option (List K)) :
    M'.knownPart.value q u' = M.knownPart.value q u := by
  have key : ∀ {S : Type} (M : Model K S), (∀ s ∈ M.slots, s.infer = true) → ∀ u : Option (List K),
      M.knownPart.value q u = replicate q.length 0 := by
    intro S M h u
    have h0 : M.knownPart.slots = [] := by
      simp only [Model.knownPart, filter_eq_nil_iff]
      intro s hs
      simp [h s hs]
    have hops : M.knownPart.ops = [] := by rw [Model.ops, h0]; rfl
    have : M.knownPart.rhs q u = .ok (replicate q.length 0) := by rw [Model.rhs, hops]; rfl
    rw [Model.value, this]
  rw [key M h, key M' h']

/-! ### Non-vacuity -/

/-- A least-squares routine for two problems that fit exactly. -/
def inpLs (A B : Mat ℚ) : Except Err (Mat ℚ) :=
  if A = ⟨3, 3, [[1, 0, 0], [1, 1, 0], [1, 0, 1]]⟩ ∧ B = ⟨3, 1, [[1], [3], [4]]⟩ then .ok ⟨3, 1, [[1], [2], [3]]⟩
  else if A = ⟨3, 3, [[1, 0, 1], [1, 1, 1], [1, 0, 3]]⟩ ∧ B = ⟨3, 1, [[1], [3], [4]]⟩ then
    .ok ⟨3, 1, [[-1 / 2], [2], [3 / 2]]⟩
  else .error .linalg

theorem inpLs_spec (A B X : Mat ℚ) (h : inpLs A B = .ok X) : IsLstsq A B X := by
  unfold inpLs at h
  split at h
  · rename_i hc
    obtain ⟨rfl, rfl⟩ := hc
    injection h with h
    subst h
    refine exact_lstsq (by decide) rfl rfl fun j hj => ?_
    match j, hj with
    | 0, _ => exact ⟨rfl, by decide +kernel⟩
  split at h
  · rename_i hc
    obtain ⟨rfl, rfl⟩ := hc
    injection h with h
    subst h
    refine exact_lstsq (by decide) rfl rfl fun j hj => ?_
    match j, hj with
    | 0, _ => exact ⟨rfl, by decide +kernel⟩
  · cases h

/-- A model with a constant, a linear and an input operator to be learned. -/
def inpModel : Model ℚ (Plain ℚ) :=
  ⟨[⟨⟨.const, none⟩, true⟩, ⟨⟨.lin, none⟩, true⟩, ⟨⟨.inp, none⟩, true⟩], true, none, none, false, some ⟨none⟩⟩

theorem inpModel_inv : inpModel.Inv := by
  refine ⟨?_, rfl, ?_, fun _ => rfl, fun _ => ⟨⟨⟨.const, none⟩, true⟩, by simp [inpModel], rfl⟩⟩
  · intro s hs E hE
    simp only [inpModel, mem_cons, not_mem_nil, or_false] at hs
    rcases hs with rfl | rfl | rfl <;> cases hE
  · intro s hs
    simp only [inpModel, mem_cons, not_mem_nil, or_false] at hs
    rcases hs with rfl | rfl | rfl <;> simp

/-- The data of `(q, u) ↦ 1 + 2 q + 3 u` with given inputs. -/
def inpT (u : List (List ℚ)) : Training ℚ (Plain ℚ) where
  before := inpModel
  states := .mat 1 [[0], [1], [0]]
  lhs := .mat 1 [[1], [3], [4]]
  inputs := some (.mat 1 u)
  after := (inpModel.fit (plainSolver inpLs) (.mat 1 [[0], [1], [0]]) (.mat 1 [[1], [3], [4]]) (some (.mat 1 u))).1

theorem inpT_done (u : List (List ℚ)) (hu : ∀ x ∈ u, x.length = 1)
    (h : (inpModel.fit (plainSolver inpLs) (.mat 1 [[0], [1], [0]]) (.mat 1 [[1], [3], [4]]) (some (.mat 1 u))).2 = .ok ()) :
    (inpT u).Done (plainSolver inpLs) 1 1 :=
  ⟨inpModel_inv, rfl, (show ∀ x ∈ [[(0 : ℚ)], [1], [0]], x.length = 1 by decide),
    (show ∀ x ∈ [[(1 : ℚ)], [3], [4]], x.length = 1 by decide), (fun a h => by cases h; exact hu), rfl, by omega,
    (fun a h => by cases h; rfl), Prod.ext rfl h⟩

def inpA : Training ℚ (Plain ℚ) := inpT [[0], [0], [1]]
def inpB : Training ℚ (Plain ℚ) := inpT [[1], [1], [3]]

theorem inpA_decided : inpA.Decided 1 1 := by
  intro v hv h
  obtain ⟨a, b, e, rfl⟩ : ∃ a b e, v = [a, b, e] := by
    match v, hv with
    | [a, b, e], _ => exact ⟨a, b, e, rfl⟩
  have h0 := h ⟨[0], [1], some [0]⟩ (by
    simp [Training.samples, argSamples, inpA, inpT, atleast2d, inputAt, range_succ])
  have h1 := h ⟨[1], [3], some [0]⟩ (by
    simp [Training.samples, argSamples, inpA, inpT, atleast2d, inputAt, range_succ])
  have h2 := h ⟨[0], [4], some [1]⟩ (by
    simp [Training.samples, argSamples, inpA, inpT, atleast2d, inputAt, range_succ])
  simp [inpA, inpT, inpModel, Model.toInfer, dataVector, OpKind.dataCol, dot] at h0 h1 h2
  have hb : b = 0 := by linarith
  have he : e = 0 := by linarith
  simp [h0, hb, he]

theorem inp_changed : InputsChanged 1 1 [[2]] [1] inpA inpB := by
  refine ⟨rfl, ?_, fun q u hq _ => ?_⟩
  · simp [Training.samples, argSamples, inpA, inpB, inpT, atleast2d, inputAt, range_succ, affineInput, affineMap, vadd, matVec,
      dot]
    norm_num
  · exact C130_nothing_known _ _ (by decide +kernel) (by decide +kernel) q _ _

theorem inp_complete : InputComplete inpA.before.toInfer := by
  rw [show inpA.before.toInfer = [.const, .lin, .inp] from rfl]
  exact ⟨by simp, by simp⟩

-- all hypotheses of `C130_inputs` and `C130_predict` hold
example : inpB.after.predict [1] 3 (changedInputs [[2]] [1] (.arr (.mat 1 [[0], [1]]))) = .ok [[1], [3], [10]] :=
  C130_predict inpLs inpLs_spec inpA inpB 1 1 (inpT_done _ (by decide) (by decide +kernel))
    (inpT_done _ (by decide) (by decide +kernel)) [[2]] [[1 / 2]] aff_inverts [1] rfl (.inr inp_complete) inp_changed
    inpA_decided [1] 3 (.arr (.mat 1 [[0], [1]]))
    (fun a h => by cases h; exact (show ∀ x ∈ [[(0 : ℚ)], [1]], x.length = 1 by decide)) [[1], [3], [10]] (by decide +kernel)

end Opinf
