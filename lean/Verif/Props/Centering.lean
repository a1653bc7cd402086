import Verif.Lemmas.Translate
import Verif.Props.Coordinates

/-!
# C126: without regularization, complete polynomial models do not depend on the reference state

Specification: a vector is added to all states (and a vector to all left-hand sides).
-/

namespace Opinf

open List

variable {K : Type}

/-- Two trainings whose states differ by `c` and whose left-hand sides differ by `d`. The models have operators of the same
classes, the same of which are to be learned, and the known operators are expressed with the respective reference state. -/
structure Moved [Field K] {S S' : Type} (r m : Nat) (c d : List K) (t : Training K S) (t' : Training K S') : Prop where
  slots : t'.before.slots.map (fun s => (s.op.kind, s.infer)) = t.before.slots.map fun s => (s.op.kind, s.infer)
  count : (atleast2d t'.states).2.length = (atleast2d t.states).2.length
  states : ∀ j : Nat, j < (atleast2d t.states).2.length →
    (atleast2d t'.states).2.getD j [] = vadd ((atleast2d t.states).2.getD j []) c
  lhs : ∀ j : Nat, j < (atleast2d t.states).2.length →
    (atleast2d t'.lhs).2.getD j [] = vadd ((atleast2d t.lhs).2.getD j []) d
  inputs : t'.inputs = t.inputs
  known : ∀ q u, q.length = r → (∀ o ∈ t.before.ops, InputOK o.kind m u) →
    t'.before.knownPart.value (vadd q c) u = t.before.knownPart.value q u

/-- The right-hand side of the second model at `q + c` is the one of the first model at `q`, plus `d`. -/
def Follows [Field K] {S S' : Type} (c d : List K) (M : Model K S) (M' : Model K S') (q : List K) (u : Option (List K)) :
    Prop :=
  ∃ y, M.rhs q u = .ok y ∧ M'.rhs (vadd q c) u = .ok (vadd y d)

section

variable [Field K] [LinearOrder K] [IsStrictOrderedRing K]

omit [LinearOrder K] [IsStrictOrderedRing K] in
theorem vadd_neg_cancel {q c : List K} (h : q.length = c.length) : vadd (vadd q c) (c.map (-·)) = q := by
  refine ext_getElem (by simp [h]) fun i h1 h2 => ?_
  simp [vadd]

omit [LinearOrder K] [IsStrictOrderedRing K] in
theorem vsub_shifted {z y k d : List K} (h1 : y.length = z.length) (h2 : k.length = z.length) (h3 : d.length = z.length) :
    vsub (vadd z d) (vadd (vadd y d) k) = vsub z (vadd y k) := by
  refine ext_getElem (by simp [h1, h2, h3]) fun i i1 i2 => ?_
  simp [vadd, vsub]
  ring

omit [LinearOrder K] [IsStrictOrderedRing K] in
theorem vadd_swap (y d k : List K) : vadd (vadd y d) k = vadd (vadd y k) d := by
  rw [vadd_right_comm]

/-- A matrix applied to the data of a complete set of operators, translated back, plus a vector. -/
theorem spanned_affine {kinds : List OpKind} {r m : Nat} {c d : List K} (hc : Complete kinds) (hl : c.length = r)
    (hd : d.length = r) (h1 : OpKind.const ∈ kinds ∨ d = replicate r 0) {O : List (List K)}
    (hO : IsMat r (kinds.map fun o => o.dim r m).sum O) :
    ∃ P : List (List K), IsMat r (kinds.map fun o => o.dim r m).sum P ∧ ∀ (q : List K) (u : Option (List K)), q.length = r →
      (∀ o ∈ kinds, InputOK o m u) →
        matVec P (dataVector kinds q (u.getD [])) = vadd (matVec O (dataVector kinds (vadd q c) (u.getD []))) d := by
  refine spanned_matrix (F := fun q u => vadd (matVec O (dataVector kinds (vadd q c) (u.getD []))) d) (fun k hk => ?_)
    fun q u hq hu => by rw [length_vadd, length_matVec, hO.1, hd, min_self]
  obtain ⟨L, hL, hLf⟩ := translate_features (m := m) hc hl
  have a : Spanned kinds r m fun q u => dot (O.getD k []) (dataVector kinds (vadd q c) (u.getD [])) :=
    ⟨vecMat _ (O.getD k []) L, length_vecMat _ _ _ hL.2, fun q u hq hu => by
      rw [dot_vecMat _ _ _ _ hL.2, hLf q u hq hu]⟩
  have b : Spanned kinds r m fun (_ : List K) (_ : Option (List K)) => d.getD k 0 := by
    rcases h1 with h1 | h1
    · exact ((spanned_entry h1 (j := 0) (by simp [OpKind.dim])).smul (d.getD k 0)).congr fun q u _ _ => by
        simp [OpKind.dataCol]
    · refine ⟨replicate (kinds.map fun o => o.dim r m).sum 0, by simp, fun q u _ _ => ?_⟩
      rw [dot_zeros, h1]
      simp [getD_eq_getElem?_getD, getElem?_replicate, hk]
  refine (a.add b).congr fun q u hq hu => ?_
  rw [getD_vadd _ _ (by rw [length_matVec, hO.1, hd]), getD_matVec]

theorem moved_core {S S' : Type} {r m : Nat} {c d : List K} (hcl : c.length = r) (hdl : d.length = r) {t : Training K S}
    {t' : Training K S'} (hk : Complete t.before.toInfer) (h1 : OpKind.const ∈ t.before.toInfer ∨ d = replicate r 0)
    (hc : Moved r m c d t t') {O O' : Mat K} (h : t.Fitted r m (fun _ _ => 0) O) (h' : t'.Fitted r m (fun _ _ => 0) O') :
    (∀ x ∈ t.samples, Follows c d t.after t'.after x.q x.u) ∧
      (t.Decided r m → ∀ q u, q.length = r → (∀ o ∈ t.before.ops, InputOK o.kind m u) →
        Follows c d t.after t'.after q u) := by
  obtain ⟨c1, c2, c3, c4, c5, c6⟩ := hc
  have hinf : t'.before.toInfer = t.before.toInfer := by
    have e : ∀ l : List (Slot K), ((l.map fun s => (s.op.kind, s.infer)).filter Prod.snd).map Prod.fst =
        (l.filter Slot.infer).map fun s => s.op.kind := fun l => by rw [filter_map, map_map]; rfl
    rw [Model.toInfer, Model.toInfer, ← e, ← e, c1]
  have hkinds : t'.before.ops.map Op.kind = t.before.ops.map Op.kind := by
    have e : ∀ l : List (Slot K), (l.map fun s => (s.op.kind, s.infer)).map Prod.fst = (l.map Slot.op).map Op.kind :=
      fun l => by rw [map_map, map_map]; rfl
    rw [Model.ops, Model.ops, ← e, ← e, c1]
  have hok : ∀ u : Option (List K), (∀ o ∈ t.before.ops, InputOK o.kind m u) → ∀ o ∈ t'.before.ops, InputOK o.kind m u := by
    intro u hu o ho
    have : o.kind ∈ t.before.ops.map Op.kind := by rw [← hkinds]; exact mem_map_of_mem ho
    obtain ⟨p, hp, e⟩ := mem_map.1 this
    rw [← e]
    exact hu p hp
  have hw : t'.width r m = t.width r m := by rw [Training.width, hinf]; rfl
  have hf : ∀ q u, t'.features q u = t.features q u := fun q u => by rw [Training.features, hinf]; rfl
  obtain ⟨w, hwd⟩ : ∃ w, w = t.width r m := ⟨_, rfl⟩
  have hwe : (t.before.toInfer.map fun o => o.dim r m).sum = w := hwd.symm
  have hcv : ∀ q : List K, q.length = r → (vadd q c).length = r := fun q hq => by rw [length_vadd, hq, hcl, min_self]
  have rO : O.rows.length = r := by rw [h.has.wf.1, h.has.nrows]
  have cO : ∀ a ∈ O.rows, a.length = w := fun a ha => by rw [h.has.wf.2 a ha, h.has.ncols, hwd]
  have cO' : ∀ a ∈ O'.rows, a.length = w := fun a ha => by rw [h'.has.wf.2 a ha, h'.has.ncols, hw, hwd]
  have rO' : O'.rows.length = r := by rw [h'.has.wf.1, h'.has.nrows]
  obtain ⟨L, hL, hLf⟩ := translate_features (m := m) hk hcl
  obtain ⟨P, hP, hPf⟩ := spanned_affine (m := m) (c := c.map (-·)) hk (by rw [length_map, hcl]) hdl h1
    (O := O.rows) (by rw [hwe]; exact ⟨rO, cO⟩)
  obtain ⟨Q, hQ, hQf⟩ := spanned_affine (m := m) (c := replicate r 0) hk (by simp) hdl h1
    (O := O.rows) (by rw [hwe]; exact ⟨rO, cO⟩)
  rw [hwe] at hL hP hQ
  have fT : ∀ q u, q.length = r → (∀ o ∈ t.before.ops, InputOK o.kind m u) →
      matVec L (t.features q u) = t.features (vadd q c) u := fun q u hq hu => hLf q u hq (toInfer_ok hu)
  have fP : ∀ q u, q.length = r → (∀ o ∈ t.before.ops, InputOK o.kind m u) →
      matVec P (t.features (vadd q c) u) = vadd (matVec O.rows (t.features q u)) d := fun q u hq hu => by
    have := hPf (vadd q c) u (hcv q hq) (toInfer_ok hu)
    rw [vadd_neg_cancel (by rw [hq, hcl])] at this
    exact this
  have fQ : ∀ q u, q.length = r → (∀ o ∈ t.before.ops, InputOK o.kind m u) →
      matVec Q (t.features q u) = vadd (matVec O.rows (t.features q u)) d := fun q u hq hu => by
    have := hQf q u hq (toInfer_ok hu)
    rw [vadd_zeros_right _ _ hq] at this
    exact this
  have hsam : t'.samples = t.samples.map fun x => ⟨vadd x.q c, vadd x.z d, x.u⟩ := by
    rw [Training.samples, Training.samples, argSamples, argSamples, map_map, c2]
    refine map_congr_left fun j hj => ?_
    simp only [Function.comp_apply]
    rw [c3 j (mem_range.1 hj), c4 j (mem_range.1 hj), c5]
  have mm : ∀ {A : List (List K)}, IsMat r w A → IsMat r w (matMul w A L) := by
    intro A hA
    refine ⟨by simp [matMul, hA.1], fun x hx => ?_⟩
    obtain ⟨y, _, rfl⟩ := mem_map.1 hx
    exact length_vecMat _ _ _ hL.2
  have zw : ∀ A B : List (List K), (zipWith (fun _ _ : List K => (0 : K)) A B).sum = 0 := fun A B => by
    refine List.sum_eq_zero fun y hy => ?_
    obtain ⟨k, hk, rfl⟩ := getElem_of_mem hy
    simp
  obtain ⟨d1, -⟩ := C116_determined h' ⟨r, w, P⟩ hP rfl (by rw [hw, hwd])
    (fun H hH g1 g2 => by
      rw [hw, ← hwd] at g2
      have hHm : IsMat r w H.rows := ⟨by rw [hH.1, g1], fun a ha => by rw [hH.2 a ha, g2]⟩
      have key := h.orthogonal ⟨r, w, matMul w H.rows L⟩ (mm hHm) rfl hwd
      rw [zw] at key ⊢
      refine Eq.trans ?_ key
      rw [hsam, map_map]
      refine congrArg List.sum (map_congr_left fun x hx => ?_)
      obtain ⟨a1, a2, a3⟩ := h.has.samples x hx
      have k1 := (h.has.output _ _ a1 a3).2
      have hv := h.has.value hx
      simp only [Function.comp_apply]
      rw [hf, fP x.q x.u a1 a3, c6 x.q x.u a1 a3, vsub_shifted (by rw [length_matVec, rO, a2]) (by rw [k1, a2])
        (by rw [hdl, a2]), ← hv.2.1, matVec_matMul _ _ _ _ hL.2, fT x.q x.u a1 a3]
      rfl)
  have at_samples : ∀ x ∈ t.samples, matVec O'.rows (t.features (vadd x.q c) x.u) =
      vadd (matVec O.rows (t.features x.q x.u)) d := by
    intro x hx
    obtain ⟨a1, a2, a3⟩ := h.has.samples x hx
    have := d1 ⟨vadd x.q c, vadd x.z d, x.u⟩ (by rw [hsam]; exact mem_map.2 ⟨x, hx, rfl⟩)
    simp only at this
    rw [hf, fP x.q x.u a1 a3] at this
    exact this.symm
  have out : ∀ q u, q.length = r → (∀ o ∈ t.before.ops, InputOK o.kind m u) →
      matVec O'.rows (t.features (vadd q c) u) = vadd (matVec O.rows (t.features q u)) d →
      Follows c d t.after t'.after q u := by
    intro q u hq hu he
    obtain ⟨f1, f1'⟩ := h.has.output q u hq hu
    obtain ⟨f2, -⟩ := h'.has.output (vadd q c) u (hcv q hq) (hok u hu)
    refine ⟨_, f1, ?_⟩
    rw [f2, hf, he, c6 q u hq hu, vadd_swap]
  refine ⟨fun x hx => out x.q x.u (h.has.samples x hx).1 (h.has.samples x hx).2.2 (at_samples x hx), fun hdec q u hq hu =>
    out q u hq hu ?_⟩
  have hA : IsMat r w (matMul w O'.rows L) := mm ⟨rO', cO'⟩
  have hAB : matMul w O'.rows L = Q := by
    refine ext_getElem (by rw [hA.1, hQ.1]) fun i i1 i2 => ?_
    have l1 := hA.2 _ (getElem_mem i1)
    have l2 := hQ.2 _ (getElem_mem i2)
    refine vsub_zero_mem (by rw [l1, l2]) (hdec _ (by rw [length_vsub, l1, l2, min_self, hwd]; rfl) fun x hx => ?_)
    obtain ⟨a1, a2, a3⟩ := h.has.samples x hx
    have e := at_samples x hx
    rw [← fT x.q x.u a1 a3, ← matVec_matMul _ _ _ _ hL.2, ← fQ x.q x.u a1 a3] at e
    have e := congrArg (fun l => l.getD i 0) e
    simp only [getD_matVec] at e
    rw [Opinf.getD_eq_getElem _ [] i1, Opinf.getD_eq_getElem _ [] i2] at e
    rw [dot_vsub_left _ _ _ (by rw [l1, l2])]
    exact sub_eq_zero.2 e
  rw [← fT q u hq hu, ← matVec_matMul _ _ _ _ hL.2, hAB, fQ q u hq hu]

/-! ### Property theorems -/

/-- **C126.** Train a model without regularization, and train it again with `c` added to all states and `d` to all
left-hand sides. Assume that with each class of operators those of lower degree are learned too, and that the constant is
learned if `d` is not zero. The second model at `q + c` is the first model at `q`, plus `d`: at all training samples, and for
all states and inputs if the data determine the operators. -/
theorem C126_centering (lstsq : Mat K → Mat K → Except Err (Mat K)) (hls : ∀ A B X, lstsq A B = .ok X → IsLstsq A B X)
    (t t' : Training K (Plain K)) (r m : Nat) (h : t.Done (plainSolver lstsq) r m) (h' : t'.Done (plainSolver lstsq) r m)
    (c d : List K) (hcl : c.length = r) (hdl : d.length = r) (hk : Complete t.before.toInfer)
    (h1 : OpKind.const ∈ t.before.toInfer ∨ d = replicate r 0) (hc : Moved r m c d t t') :
    (∀ x ∈ t.samples, Follows c d t.after t'.after x.q x.u) ∧
      (t.Decided r m → ∀ q u, q.length = r → (∀ o ∈ t.before.ops, InputOK o.kind m u) →
        Follows c d t.after t'.after q u) := by
  obtain ⟨O, hO⟩ := C116_plain lstsq hls t r m h
  obtain ⟨O', hO'⟩ := C116_plain lstsq hls t' r m h'
  exact moved_core hcl hdl hk h1 hc hO hO'

theorem moved_kinds {S S' : Type} {r m : Nat} {c d : List K} {t : Training K S} {t' : Training K S'}
    (hc : Moved r m c d t t') : t'.before.ops.map Op.kind = t.before.ops.map Op.kind := by
  have e : ∀ l : List (Slot K), (l.map fun s => (s.op.kind, s.infer)).map Prod.fst = (l.map Slot.op).map Op.kind :=
    fun l => by rw [map_map, map_map]; rfl
  rw [Model.ops, Model.ops, ← e, ← e, hc.slots]

/-- **C126** (the residuals). The residuals of both models agree at all samples. -/
theorem C126_residuals (lstsq : Mat K → Mat K → Except Err (Mat K)) (hls : ∀ A B X, lstsq A B = .ok X → IsLstsq A B X)
    (t t' : Training K (Plain K)) (r m : Nat) (h : t.Done (plainSolver lstsq) r m) (h' : t'.Done (plainSolver lstsq) r m)
    (c d : List K) (hcl : c.length = r) (hdl : d.length = r) (hk : Complete t.before.toInfer)
    (h1 : OpKind.const ∈ t.before.toInfer ∨ d = replicate r 0) (hc : Moved r m c d t t') :
    t'.samples.map t'.gap = t.samples.map t.gap := by
  have key := (C126_centering lstsq hls t t' r m h h' c d hcl hdl hk h1 hc).1
  obtain ⟨O, hO⟩ := C116_plain lstsq hls t r m h
  have hsam : t'.samples = t.samples.map fun x => ⟨vadd x.q c, vadd x.z d, x.u⟩ := by
    rw [Training.samples, Training.samples, argSamples, argSamples, map_map, hc.count]
    refine map_congr_left fun j hj => ?_
    simp only [Function.comp_apply]
    rw [hc.states j (mem_range.1 hj), hc.lhs j (mem_range.1 hj), hc.inputs]
  rw [hsam, map_map]
  refine map_congr_left fun x hx => ?_
  obtain ⟨y, e1, e2⟩ := key x hx
  obtain ⟨-, a2, -⟩ := hO.has.samples x hx
  have hv := hO.has.value hx
  have e3 : t.after.value x.q x.u = y := by rw [Model.value, e1]
  rw [Function.comp_apply, Training.gap, Training.gap, Model.value, e2, e3]
  have hy : y.length = r := by rw [← e3]; exact hv.2.2.1
  refine ext_getElem (by simp [a2, hy, hdl]) fun i i1 i2 => ?_
  simp [vsub, vadd]

/-- **C126** (predictions). For discrete-time data, where `c` is added to states and left-hand sides: if the data determine
the operators, the prediction of the second model from `q₀ + c` is the prediction of the first from `q₀`, plus `c`. -/
theorem C126_predict (lstsq : Mat K → Mat K → Except Err (Mat K)) (hls : ∀ A B X, lstsq A B = .ok X → IsLstsq A B X)
    (t t' : Training K (Plain K)) (r m : Nat) (h : t.Done (plainSolver lstsq) r m) (h' : t'.Done (plainSolver lstsq) r m)
    (c : List K) (hcl : c.length = r) (hk : Complete t.before.toInfer) (h1 : OpKind.const ∈ t.before.toInfer)
    (hc : Moved r m c c t t') (hd : t.Decided r m) (q0 : List K) (n : Int)
    (inputs : PredInput K) (hin : ∀ a, inputs = .arr a → a.WF) (L : List (List K))
    (hL : t.after.predict q0 n inputs = .ok L) : t'.after.predict (vadd q0 c) n inputs = .ok (L.map (vadd · c)) := by
  have hsh : (plainSolver lstsq : SolverI K (Plain K)).Shaped r :=
    plainSolver_shaped lstsq (fun A B X h => ⟨(hls A B X h).wf, (hls A B X h).rows, (hls A B X h).cols⟩) _
  obtain ⟨a1, a2, a3, a4, a5, a6, a7, a8⟩ := done_trained h hsh
  obtain ⟨b1, b2, b3, b4, b5, b6, b7, b8⟩ := done_trained h' hsh
  have hkk := moved_kinds hc
  have hi : t'.after.hasInputs = t.after.hasInputs := by
    rw [b6, a6, h.inv.inputs, h'.inv.inputs, any_of_kinds hkk]
  have hcor := (C126_centering lstsq hls t t' r m h h' c c hcl hcl hk (Or.inl h1) hc).2 hd
  rw [C15_predict_iff] at hL ⊢
  obtain ⟨c1, c2, c3, c4, c5, c6, c7⟩ := hL
  rw [a3] at c2
  have hq0 : q0.length = r := Option.some.inj c2
  have hu : ∀ j : Nat, j + 1 < n.toNat → ∀ o ∈ t.after.ops, InputOK o.kind m (inputs.at t.after.hasInputs j) := by
    intro j hj o ho hio
    have hh : t.after.hasInputs = true := by
      rw [a1.inputs, any_eq_true]; exact ⟨o, ho, hio⟩
    have he := c4 hh
    rw [a7 hh] at he
    cases inputs with
    | arr a =>
      rw [hh]
      refine ⟨_, rfl, ?_⟩
      have hl : j < (atleast2d a).2.length := by have := he.2; omega
      rw [Opinf.getD_eq_getElem _ [] hl, hin a rfl _ (getElem_mem _)]
      exact Option.some.inj he.1
    | _ => exact he.elim
  have hlen : ∀ j : Nat, j < n.toNat → (L.getD j []).length = r := by
    intro j
    induction j with
    | zero => intro _; rw [c6, hq0]
    | succ j ih =>
      intro hj
      have hcal := c7 j hj
      rw [rhs_eq t.after r m a8 _ _ (ih (by omega)) (hu j hj)] at hcal
      rw [← Except.ok.inj hcal]
      exact length_rhsVal _ r m a8 _ _
  have hget : ∀ j : Nat, j < n.toNat → (L.map (vadd · c)).getD j [] = vadd (L.getD j []) c := by
    intro j hj
    rw [Opinf.getD_eq_getElem _ [] (by rw [length_map, c5]; exact hj), Opinf.getD_eq_getElem _ [] (by rw [c5]; exact hj),
      getElem_map]
  refine ⟨b4, by rw [b3, length_vadd, hq0, hcl, min_self], c3, fun hh => ?_, by rw [length_map, c5], ?_, fun j hj => ?_⟩
  · rw [b7 hh, ← a7 (hi ▸ hh)]
    exact c4 (hi ▸ hh)
  · rw [hget 0 (by omega), c6]
  · rw [hget j (by omega), hget (j + 1) hj, hi]
    obtain ⟨y, e1, e2⟩ := hcor (L.getD j []) (inputs.at t.after.hasInputs j) (hlen j (by omega)) (fun o ho => by
      have : o.kind ∈ t.after.ops.map Op.kind := by rw [a5]; exact mem_map_of_mem ho
      obtain ⟨p, hp, e⟩ := mem_map.1 this
      rw [← e]
      exact hu j hj p hp)
    rw [e2]
    rw [c7 j hj] at e1
    rw [Except.ok.inj e1]

end

/-- **C126** (models without known operators). If all operators of both models are to be learned, there is no condition on
known operators. -/
theorem C126_nothing_known {S S' : Type} [Field K] (M : Model K S) (M' : Model K S') (h : ∀ s ∈ M.slots, s.infer = true)
    (h' : ∀ s ∈ M'.slots, s.infer = true) {r : Nat} (c : List K) (hc : c.length = r) (q : List K)
    (u : Option (List K)) (hq : q.length = r) : M'.knownPart.value (vadd q c) u = M.knownPart.value q u := by
  have key : ∀ {S : Type} (M : Model K S), (∀ s ∈ M.slots, s.infer = true) → ∀ q : List K,
      M.knownPart.value q u = replicate q.length 0 := by
    intro S M h q
    have h0 : M.knownPart.slots = [] := by
      simp only [Model.knownPart, filter_eq_nil_iff]
      intro s hs
      simp [h s hs]
    have hops : M.knownPart.ops = [] := by rw [Model.ops, h0]; rfl
    have : M.knownPart.rhs q u = .ok (replicate q.length 0) := by rw [Model.rhs, hops]; rfl
    rw [Model.value, this]
  rw [key M h, key M' h', length_vadd, hq, hc, min_self]

/-! ### Examples -/

/-- A least-squares routine for four problems that fit exactly. -/
def cenLs (A B : Mat ℚ) : Except Err (Mat ℚ) :=
  if A = ⟨3, 3, [[1, 0, 0], [1, 1, 1], [1, 2, 4]]⟩ ∧ B = ⟨3, 1, [[1], [3], [7]]⟩ then .ok ⟨3, 1, [[1], [1], [1]]⟩
  else if A = ⟨3, 3, [[1, 1, 1], [1, 2, 4], [1, 3, 9]]⟩ ∧ B = ⟨3, 1, [[2], [4], [8]]⟩ then .ok ⟨3, 1, [[2], [-1], [1]]⟩
  else if A = ⟨1, 1, [[1]]⟩ ∧ B = ⟨1, 1, [[1]]⟩ then .ok ⟨1, 1, [[1]]⟩
  else if A = ⟨1, 1, [[2]]⟩ ∧ B = ⟨1, 1, [[1]]⟩ then .ok ⟨1, 1, [[1 / 2]]⟩
  else .error .linalg

theorem cenLs_spec (A B X : Mat ℚ) (h : cenLs A B = .ok X) : IsLstsq A B X := by
  unfold cenLs at h
  split at h
  · rename_i hc
    obtain ⟨rfl, rfl⟩ := hc
    injection h with h
    subst h
    refine exact_lstsq (by decide) rfl rfl fun j hj => ?_
    match j, hj with
    | 0, _ => exact ⟨rfl, by decide +kernel⟩
  split at h
  · rename_i hc
    obtain ⟨rfl, rfl⟩ := hc
    injection h with h
    subst h
    refine exact_lstsq (by decide) rfl rfl fun j hj => ?_
    match j, hj with
    | 0, _ => exact ⟨rfl, by decide +kernel⟩
  split at h
  · rename_i hc
    obtain ⟨rfl, rfl⟩ := hc
    injection h with h
    subst h
    refine exact_lstsq (by decide) rfl rfl fun j hj => ?_
    match j, hj with
    | 0, _ => exact ⟨rfl, by decide +kernel⟩
  split at h
  · rename_i hc
    obtain ⟨rfl, rfl⟩ := hc
    injection h with h
    subst h
    refine exact_lstsq (by decide) rfl rfl fun j hj => ?_
    match j, hj with
    | 0, _ => exact ⟨rfl, by decide +kernel⟩
  · cases h

/-- Untrained models with operators of the given classes. -/
def cenModel (kinds : List OpKind) : Model ℚ (Plain ℚ) :=
  ⟨kinds.map fun o => ⟨⟨o, none⟩, true⟩, false, none, some 0, false, some ⟨none⟩⟩

def cenT (kinds : List OpKind) (q z : List (List ℚ)) : Training ℚ (Plain ℚ) where
  before := cenModel kinds
  states := .mat 1 q
  lhs := .mat 1 z
  inputs := none
  after := ((cenModel kinds).fit (plainSolver cenLs) (.mat 1 q) (.mat 1 z) none).1

theorem cenModel_inv (kinds : List OpKind) (hne : kinds ≠ []) (h : kinds.any OpKind.hasInputs = false) :
    (cenModel kinds).Inv := by
  obtain ⟨a, l, rfl⟩ := exists_cons_of_ne_nil hne
  refine ⟨?_, ?_, ?_, fun _ => rfl, fun _ => ⟨⟨⟨a, none⟩, true⟩, by simp [cenModel], rfl⟩⟩
  · intro s hs E hE
    obtain ⟨o, _, rfl⟩ := mem_map.1 hs
    cases hE
  · have e : (cenModel (a :: l)).ops.any (·.kind.hasInputs) = (a :: l).any OpKind.hasInputs := by
      rw [Model.ops, cenModel, map_map, any_map]
      rfl
    rw [e, h]
    rfl
  · intro s hs
    obtain ⟨o, _, rfl⟩ := mem_map.1 hs
    simp

theorem cenT_done (kinds : List OpKind) (hne : kinds ≠ []) (hi : kinds.any OpKind.hasInputs = false) (q z : List (List ℚ))
    (hq : ∀ x ∈ q, x.length = 1) (hz : ∀ x ∈ z, x.length = 1)
    (h : ((cenModel kinds).fit (plainSolver cenLs) (.mat 1 q) (.mat 1 z) none).2 = .ok ()) :
    (cenT kinds q z).Done (plainSolver cenLs) 1 0 :=
  ⟨cenModel_inv kinds hne hi, rfl, hq, hz, (fun a h => by cases h), rfl, by omega, (fun a h => by cases h), Prod.ext rfl h⟩

/-- The data of `q ↦ 1 + q + q²`, and the same with 1 added to states and left-hand sides. -/
def cenA : Training ℚ (Plain ℚ) := cenT [.const, .lin, .kron .quad] [[0], [1], [2]] [[1], [3], [7]]
def cenB : Training ℚ (Plain ℚ) := cenT [.const, .lin, .kron .quad] [[1], [2], [3]] [[2], [4], [8]]

theorem cenA_done : cenA.Done (plainSolver cenLs) 1 0 :=
  cenT_done _ (by simp) rfl _ _ (by decide) (by decide) (by decide +kernel)

theorem cenB_done : cenB.Done (plainSolver cenLs) 1 0 :=
  cenT_done _ (by simp) rfl _ _ (by decide) (by decide) (by decide +kernel)

theorem cen_complete : Complete cenA.before.toInfer := by
  have : cenA.before.toInfer = [.const, .lin, .kron .quad] := rfl
  rw [this]
  exact ⟨by simp, by simp, by simp, by simp, by simp⟩

theorem cen_moved : Moved 1 0 [1] [1] cenA cenB := by
  refine ⟨rfl, rfl, fun j hj => ?_, fun j hj => ?_, rfl, fun q u hq _ => ?_⟩
  · match j, hj with
    | 0, _ => decide +kernel
    | 1, _ => decide +kernel
    | 2, _ => decide +kernel
  · match j, hj with
    | 0, _ => decide +kernel
    | 1, _ => decide +kernel
    | 2, _ => decide +kernel
  · exact C126_nothing_known _ _ (by decide +kernel) (by decide +kernel) _ rfl q u hq

theorem cenA_decided : cenA.Decided 1 0 := by
  intro v hv h
  obtain ⟨a, b, e, rfl⟩ : ∃ a b e, v = [a, b, e] := by
    match v, hv with
    | [a, b, e], _ => exact ⟨a, b, e, rfl⟩
  have h0 := h ⟨[0], [1], none⟩ (by
    simp [Training.samples, argSamples, cenA, cenT, atleast2d, inputAt, range_succ])
  have h1 := h ⟨[1], [3], none⟩ (by
    simp [Training.samples, argSamples, cenA, cenT, atleast2d, inputAt, range_succ])
  have h2 := h ⟨[2], [7], none⟩ (by
    simp [Training.samples, argSamples, cenA, cenT, atleast2d, inputAt, range_succ])
  simp [cenA, cenT, cenModel, Model.toInfer, dataVector, OpKind.dataCol, dot, Kind.ckron, ckron2] at h0 h1 h2
  have hb : b = 0 := by linarith
  have he : e = 0 := by linarith
  simp [h0, hb, he]

-- all hypotheses of `C126_centering`, `C126_residuals` and `C126_predict` hold for a quadratic model
example : cenB.after.predict (vadd [0] [1]) 3 .none = .ok ([[0], [1], [3]].map (vadd · [1])) :=
  C126_predict cenLs cenLs_spec cenA cenB 1 0 cenA_done cenB_done [1] rfl cen_complete
    (by rw [show cenA.before.toInfer = [.const, .lin, .kron .quad] from rfl]; simp) cen_moved cenA_decided [0] 3 .none
    (fun a h => by cases h) [[0], [1], [3]] (by decide +kernel)

example : (cenA.after.ops.map Op.entries) = [some ⟨1, 1, [[1]]⟩, some ⟨1, 1, [[1]]⟩, some ⟨1, 1, [[1]]⟩] ∧
    (cenB.after.ops.map Op.entries) = [some ⟨1, 1, [[2]]⟩, some ⟨1, 1, [[-1]]⟩, some ⟨1, 1, [[1]]⟩] := by
  constructor <;> decide +kernel

/-- A linear operator alone, trained with one sample, and with the state moved by 1. -/
def cenC : Training ℚ (Plain ℚ) := cenT [.lin] [[1]] [[1]]
def cenD : Training ℚ (Plain ℚ) := cenT [.lin] [[2]] [[1]]

/-- **C126** (where it ends). For a linear operator without a constant one the result depends on the reference state, although
the data determine the operator: the state 2 has the derivative 2 in the first model, and 3/2 in the second, where it is
called 3. -/
theorem C126_incomplete_witness : cenC.Done (plainSolver cenLs) 1 0 ∧ cenD.Done (plainSolver cenLs) 1 0 ∧
    Moved 1 0 [1] [0] cenC cenD ∧ cenC.Decided 1 0 ∧ cenC.after.rhs [2] none = .ok [2] ∧
    cenD.after.rhs (vadd [2] [1]) none = .ok [3 / 2] := by
  refine ⟨cenT_done _ (by simp) rfl _ _ (by decide) (by decide) (by decide +kernel),
    cenT_done _ (by simp) rfl _ _ (by decide) (by decide) (by decide +kernel), ⟨rfl, rfl, fun j hj => ?_, fun j hj => ?_, rfl,
      fun q u hq _ => ?_⟩, fun v hv h => ?_, by decide +kernel, by decide +kernel⟩
  · match j, hj with
    | 0, _ => decide +kernel
  · match j, hj with
    | 0, _ => decide +kernel
  · exact C126_nothing_known _ _ (by decide +kernel) (by decide +kernel) _ rfl q u hq
  · obtain ⟨a, rfl⟩ : ∃ a, v = [a] := by
      match v, hv with
      | [a], _ => exact ⟨a, rfl⟩
    have h0 := h ⟨[1], [1], none⟩ (by
      simp [Training.samples, argSamples, cenC, cenT, atleast2d, inputAt])
    simp [cenC, cenT, cenModel, Model.toInfer, dataVector, OpKind.dataCol, dot] at h0
    simp [h0]

end Opinf
