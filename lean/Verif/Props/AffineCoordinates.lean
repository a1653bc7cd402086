import Verif.Props.Centering

/-!
# C128: without regularization, complete polynomial models do not depend on affine coordinates

Specification: the states are replaced by `T q + c` with an invertible matrix `T`.
-/

namespace Opinf

open List

variable {K : Type}

/-- The coordinates `T q + c`. -/
def affineMap [Semiring K] (T : List (List K)) (c q : List K) : List K := vadd (matVec T q) c

/-- Two trainings: the samples of the second are those of the first with `T q + c` instead of the state `q` and `T z + d`
instead of the left-hand side `z`. The models have operators of the same classes, the same of which are to be learned, and
the known operators are expressed in the respective coordinates. -/
structure Affinely [Field K] {S S' : Type} (r m : Nat) (T : List (List K)) (c d : List K) (t : Training K S)
    (t' : Training K S') : Prop where
  slots : t'.before.slots.map (fun s => (s.op.kind, s.infer)) = t.before.slots.map fun s => (s.op.kind, s.infer)
  samples : t'.samples = t.samples.map fun x => ⟨affineMap T c x.q, affineMap T d x.z, x.u⟩
  known : ∀ q u, q.length = r → (∀ o ∈ t.before.ops, InputOK o.kind m u) →
    t'.before.knownPart.value (affineMap T c q) u = matVec T (t.before.knownPart.value q u)

/-- The operators to be learned can take up the shifts: there are none, or with each class those of lower degree are learned
too, and the constant if the left-hand sides are shifted. -/
def Absorbs [Field K] (r : Nat) (kinds : List OpKind) (c d : List K) : Prop :=
  (c = replicate r 0 ∧ d = replicate r 0) ∨ (Complete kinds ∧ (OpKind.const ∈ kinds ∨ d = replicate r 0))

/-- The right-hand side of the second model at `T q + c` is `T y + d`, where `y` is the one of the first model at `q`. -/
def FollowsAffinely [Field K] {S S' : Type} (T : List (List K)) (c d : List K) (M : Model K S) (M' : Model K S')
    (q : List K) (u : Option (List K)) : Prop :=
  ∃ y, M.rhs q u = .ok y ∧ M'.rhs (affineMap T c q) u = .ok (affineMap T d y)

section

variable [Field K] [LinearOrder K] [IsStrictOrderedRing K]

omit [LinearOrder K] [IsStrictOrderedRing K] in
theorem affine_kinds {S S' : Type} {r m : Nat} {T : List (List K)} {c d : List K} {t : Training K S} {t' : Training K S'}
    (hc : Affinely r m T c d t t') : t'.before.ops.map Op.kind = t.before.ops.map Op.kind := by
  have e : ∀ l : List (Slot K), (l.map fun s => (s.op.kind, s.infer)).map Prod.fst = (l.map Slot.op).map Op.kind :=
    fun l => by rw [map_map, map_map]; rfl
  rw [Model.ops, Model.ops, ← e, ← e, hc.slots]

theorem affine_core {S S' : Type} {r m : Nat} (hr : 0 < r) {T U : List (List K)} (hT : Inverts r T U) {c d : List K}
    (hcl : c.length = r) (hdl : d.length = r) {t : Training K S} {t' : Training K S'} (hk : Absorbs r t.before.toInfer c d)
    (hc : Affinely r m T c d t t') {O O' : Mat K} (h : t.Fitted r m (fun _ _ => 0) O)
    (h' : t'.Fitted r m (fun _ _ => 0) O') :
    (∀ x ∈ t.samples, FollowsAffinely T c d t.after t'.after x.q x.u) ∧
      (t.Decided r m → ∀ q u, q.length = r → (∀ o ∈ t.before.ops, InputOK o.kind m u) →
        FollowsAffinely T c d t.after t'.after q u) := by
  have hkinds := affine_kinds hc
  obtain ⟨c1, hsam, c6⟩ := hc
  have hinf : t'.before.toInfer = t.before.toInfer := by
    have e : ∀ l : List (Slot K), ((l.map fun s => (s.op.kind, s.infer)).filter Prod.snd).map Prod.fst =
        (l.filter Slot.infer).map fun s => s.op.kind := fun l => by rw [filter_map, map_map]; rfl
    rw [Model.toInfer, Model.toInfer, ← e, ← e, c1]
  have hok : ∀ u : Option (List K), (∀ o ∈ t.before.ops, InputOK o.kind m u) → ∀ o ∈ t'.before.ops, InputOK o.kind m u := by
    intro u hu o ho
    have : o.kind ∈ t.before.ops.map Op.kind := by rw [← hkinds]; exact mem_map_of_mem ho
    obtain ⟨p, hp, e⟩ := mem_map.1 this
    rw [← e]
    exact hu p hp
  have hw : t'.width r m = t.width r m := by rw [Training.width, hinf]; rfl
  have hf : ∀ q u, t'.features q u = t.features q u := fun q u => by rw [Training.features, hinf]; rfl
  obtain ⟨w, hwd⟩ : ∃ w, w = t.width r m := ⟨_, rfl⟩
  have hwe : (t.before.toInfer.map fun o => o.dim r m).sum = w := hwd.symm
  have hTl : ∀ v : List K, (matVec T v).length = r := fun v => by rw [length_matVec, hT.isMat.1]
  have hAl : ∀ v : List K, (affineMap T c v).length = r := fun v => by rw [affineMap, length_vadd, hTl, hcl, min_self]
  have rO : O.rows.length = r := by rw [h.has.wf.1, h.has.nrows]
  have cO : ∀ a ∈ O.rows, a.length = w := fun a ha => by rw [h.has.wf.2 a ha, h.has.ncols, hwd]
  have cO' : ∀ a ∈ O'.rows, a.length = w := fun a ha => by rw [h'.has.wf.2 a ha, h'.has.ncols, hw, hwd]
  have rO' : O'.rows.length = r := by rw [h'.has.wf.1, h'.has.nrows]
  have mm : ∀ {a b : Nat} {A B : List (List K)}, IsMat a b A → (∀ x ∈ B, x.length = w) → IsMat a w (matMul w A B) := by
    intro a b A B hA hB
    refine ⟨by simp [matMul, hA.1], fun x hx => ?_⟩
    obtain ⟨y, _, rfl⟩ := mem_map.1 hx
    exact length_vecMat _ _ _ hB
  -- the data at `T q + c` and at `q`
  have zT : c = replicate r 0 → ∀ v, affineMap T c v = matVec T v := fun e v => by
    rw [affineMap, e, vadd_zeros_right _ _ (hTl v)]
  have zD : d = replicate r 0 → ∀ v, affineMap T d v = matVec T v := fun e v => by
    rw [affineMap, e, vadd_zeros_right _ _ (hTl v)]
  obtain ⟨L1, hL1, hLf1⟩ := recoord_features t.before.toInfer (m := m) hr hT
  obtain ⟨Li, hLi, hLif⟩ := recoord_features t.before.toInfer (m := m) hr hT.symm
  rw [hwe] at hL1 hLi
  have hTO : IsMat r w (matMul w T O.rows) := mm hT.isMat cO
  have hTOL : IsMat r w (matMul w (matMul w T O.rows) Li) := mm hTO hLi.2
  have fTOL : ∀ q u, q.length = r → (∀ o ∈ t.before.ops, InputOK o.kind m u) →
      matVec (matMul w (matMul w T O.rows) Li) (t.features (matVec T q) u) =
        matVec T (matVec O.rows (t.features q u)) := fun q u hq hu => by
    have e1 := hLif (matVec T q) u (hTl q) (toInfer_ok hu)
    rw [hT.left q hq] at e1
    rw [matVec_matMul _ _ _ _ hLi.2, matVec_matMul _ _ _ _ cO]
    exact congrArg (fun x => matVec T (matVec O.rows x)) e1
  obtain ⟨L, hL, fT⟩ : ∃ L, IsMat w w L ∧ ∀ q u, q.length = r → (∀ o ∈ t.before.ops, InputOK o.kind m u) →
      matVec L (t.features q u) = t.features (affineMap T c q) u := by
    rcases hk with ⟨h0, -⟩ | ⟨hk, -⟩
    · exact ⟨L1, hL1, fun q u hq hu => by rw [zT h0]; exact hLf1 q u hq (toInfer_ok hu)⟩
    · obtain ⟨L2, hL2, hLf2⟩ := translate_features (m := m) hk hcl
      rw [hwe] at hL2
      refine ⟨matMul w L2 L1, mm hL2 hL1.2, fun q u hq hu => ?_⟩
      have e1 := hLf1 q u hq (toInfer_ok hu)
      have e2 := hLf2 (matVec T q) u (hTl q) (toInfer_ok hu)
      rw [matVec_matMul _ _ _ _ hL1.2]
      exact (congrArg (matVec L2) e1).trans e2
  obtain ⟨P, hP, fP⟩ : ∃ P, IsMat r w P ∧ ∀ q u, q.length = r → (∀ o ∈ t.before.ops, InputOK o.kind m u) →
      matVec P (t.features (affineMap T c q) u) = affineMap T d (matVec O.rows (t.features q u)) := by
    rcases hk with ⟨h0, h1⟩ | ⟨hk, h1⟩
    · exact ⟨_, hTOL, fun q u hq hu => by rw [zT h0, zD h1]; exact fTOL q u hq hu⟩
    · obtain ⟨P, hP, hPf⟩ := spanned_affine (m := m) (c := c.map (-·)) hk (by rw [length_map, hcl]) hdl h1
        (O := matMul w (matMul w T O.rows) Li) (by rw [hwe]; exact hTOL)
      rw [hwe] at hP
      refine ⟨P, hP, fun q u hq hu => ?_⟩
      have e := hPf (affineMap T c q) u (hAl q) (toInfer_ok hu)
      rw [affineMap, vadd_neg_cancel (by rw [hTl, hcl])] at e
      exact e.trans (congrArg (fun x => vadd x d) (fTOL q u hq hu))
  obtain ⟨Q, hQ, fQ⟩ : ∃ Q, IsMat r w Q ∧ ∀ q u, q.length = r → (∀ o ∈ t.before.ops, InputOK o.kind m u) →
      matVec Q (t.features q u) = affineMap T d (matVec O.rows (t.features q u)) := by
    rcases hk with ⟨-, h1⟩ | ⟨hk, h1⟩
    · exact ⟨_, hTO, fun q u hq hu => by rw [zD h1, matVec_matMul _ _ _ _ cO]⟩
    · obtain ⟨Q, hQ, hQf⟩ := spanned_affine (m := m) (c := replicate r 0) hk (by simp) hdl h1
        (O := matMul w T O.rows) (by rw [hwe]; exact hTO)
      rw [hwe] at hQ
      refine ⟨Q, hQ, fun q u hq hu => ?_⟩
      have e := hQf q u hq (toInfer_ok hu)
      rw [vadd_zeros_right _ _ hq, matVec_matMul _ _ _ _ cO] at e
      exact e
  have tr : IsMat r r (transpose r T) := by
    refine ⟨by simp [transpose], fun a ha => ?_⟩
    obtain ⟨i, _, rfl⟩ := mem_map.1 ha
    simp [hT.isMat.1]
  have zw : ∀ A B : List (List K), (zipWith (fun _ _ : List K => (0 : K)) A B).sum = 0 := fun A B => by
    refine List.sum_eq_zero fun y hy => ?_
    obtain ⟨k, hk, rfl⟩ := getElem_of_mem hy
    simp
  obtain ⟨d1, -⟩ := C116_determined h' ⟨r, w, P⟩ hP rfl (by rw [hw, hwd])
    (fun H hH g1 g2 => by
      rw [hw, ← hwd] at g2
      have hHr : H.rows.length = r := by rw [hH.1, g1]
      have hHc : ∀ a ∈ H.rows, a.length = w := fun a ha => by rw [hH.2 a ha, g2]
      have hHL : IsMat r w (matMul w H.rows L) := mm (b := w) ⟨hHr, hHc⟩ hL.2
      have hQ := mm tr hHL.2
      have key := h.orthogonal ⟨r, w, matMul w (transpose r T) (matMul w H.rows L)⟩ hQ rfl hwd
      rw [zw] at key ⊢
      refine Eq.trans ?_ key
      rw [hsam, map_map]
      refine congrArg List.sum (map_congr_left fun x hx => ?_)
      obtain ⟨a1, a2, a3⟩ := h.has.samples x hx
      have k1 := (h.has.output _ _ a1 a3).2
      have hv := h.has.value hx
      simp only [Function.comp_apply]
      rw [hf, fP x.q x.u a1 a3, c6 x.q x.u a1 a3, affineMap, affineMap, vsub_shifted (by rw [hTl, hTl]) (by rw [hTl, hTl])
        (by rw [hdl, hTl]),
        ← matVec_vadd T _ _ (by rw [length_matVec, rO, k1]), ← matVec_vsub T _ _ (by
          rw [length_vadd, length_matVec, rO, k1, a2, min_self]), ← fT x.q x.u a1 a3,
        ← matVec_matMul _ _ _ _ hL.2, ← hv.2.1, matVec_matMul _ _ _ _ hHL.2, dot_comm',
        matVec_transpose r T _ hT.isMat.2, dot_comm' (t.gap x), dot_vecMat r _ _ _ hT.isMat.2]
      rfl)
  have at_samples : ∀ x ∈ t.samples, matVec O'.rows (t.features (affineMap T c x.q) x.u) =
      affineMap T d (matVec O.rows (t.features x.q x.u)) := by
    intro x hx
    obtain ⟨a1, a2, a3⟩ := h.has.samples x hx
    have := d1 ⟨affineMap T c x.q, affineMap T d x.z, x.u⟩ (by rw [hsam]; exact mem_map.2 ⟨x, hx, rfl⟩)
    simp only at this
    rw [hf, fP x.q x.u a1 a3] at this
    exact this.symm
  have out : ∀ q u, q.length = r → (∀ o ∈ t.before.ops, InputOK o.kind m u) →
      matVec O'.rows (t.features (affineMap T c q) u) = affineMap T d (matVec O.rows (t.features q u)) →
      FollowsAffinely T c d t.after t'.after q u := by
    intro q u hq hu he
    obtain ⟨f1, f1'⟩ := h.has.output q u hq hu
    obtain ⟨f2, -⟩ := h'.has.output (affineMap T c q) u (hAl q) (hok u hu)
    refine ⟨_, f1, ?_⟩
    rw [f2, hf, he, c6 q u hq hu, affineMap, affineMap, vadd_swap, matVec_vadd T _ _ (by rw [length_matVec, rO, f1'])]
  refine ⟨fun x hx => out x.q x.u (h.has.samples x hx).1 (h.has.samples x hx).2.2 (at_samples x hx), fun hdec q u hq hu =>
    out q u hq hu ?_⟩
  have hA : IsMat r w (matMul w O'.rows L) := mm (b := w) ⟨rO', cO'⟩ hL.2
  have hAB : matMul w O'.rows L = Q := by
    refine ext_getElem (by rw [hA.1, hQ.1]) fun i i1 i2 => ?_
    have l1 := hA.2 _ (getElem_mem i1)
    have l2 := hQ.2 _ (getElem_mem i2)
    refine vsub_zero_mem (by rw [l1, l2]) (hdec _ (by rw [length_vsub, l1, l2, min_self, hwd]; rfl) fun x hx => ?_)
    obtain ⟨a1, a2, a3⟩ := h.has.samples x hx
    have e := at_samples x hx
    rw [← fT x.q x.u a1 a3, ← matVec_matMul _ _ _ _ hL.2, ← fQ x.q x.u a1 a3] at e
    have e := congrArg (fun l => l.getD i 0) e
    simp only [getD_matVec] at e
    rw [Opinf.getD_eq_getElem _ [] i1, Opinf.getD_eq_getElem _ [] i2] at e
    rw [dot_vsub_left _ _ _ (by rw [l1, l2])]
    exact sub_eq_zero.2 e
  rw [← fT q u hq hu, ← matVec_matMul _ _ _ _ hL.2, hAB, fQ q u hq hu]

/-! ### Property theorems -/

/-- **C128.** Train a model without regularization, and train it again with `T q + c` instead of every state `q` and
`T z + d` instead of every left-hand side `z`, for an invertible matrix `T`. If `c` or `d` is not zero, assume that with each
class of operators those of lower degree are learned too, and that the constant is learned if `d` is not zero. The second model at `T q + c` is
`T y + d`, where `y` is the first model at `q`: at all training samples, and for all states and inputs if the data determine
the operators. -/
theorem C128_affine (lstsq : Mat K → Mat K → Except Err (Mat K)) (hls : ∀ A B X, lstsq A B = .ok X → IsLstsq A B X)
    (t t' : Training K (Plain K)) (r m : Nat) (h : t.Done (plainSolver lstsq) r m) (h' : t'.Done (plainSolver lstsq) r m)
    (T U : List (List K)) (hT : Inverts r T U) (c d : List K) (hcl : c.length = r) (hdl : d.length = r)
    (hk : Absorbs r t.before.toInfer c d)
    (hc : Affinely r m T c d t t') :
    (∀ x ∈ t.samples, FollowsAffinely T c d t.after t'.after x.q x.u) ∧
      (t.Decided r m → ∀ q u, q.length = r → (∀ o ∈ t.before.ops, InputOK o.kind m u) →
        FollowsAffinely T c d t.after t'.after q u) := by
  obtain ⟨O, hO⟩ := C116_plain lstsq hls t r m h
  obtain ⟨O', hO'⟩ := C116_plain lstsq hls t' r m h'
  exact affine_core h.pos hT hcl hdl hk hc hO hO'

/-- The states that a trained model predicts have its dimension. -/
theorem predicted_lengths (lstsq : Mat K → Mat K → Except Err (Mat K)) (hls : ∀ A B X, lstsq A B = .ok X → IsLstsq A B X)
    (t : Training K (Plain K)) (r m : Nat) (h : t.Done (plainSolver lstsq) r m) (q0 : List K) (n : Int)
    (inputs : PredInput K) (hin : ∀ a, inputs = .arr a → a.WF) (L : List (List K))
    (hL : t.after.predict q0 n inputs = .ok L) : q0.length = r ∧ ∀ x ∈ L, x.length = r := by
  have hsh : (plainSolver lstsq : SolverI K (Plain K)).Shaped r :=
    plainSolver_shaped lstsq (fun A B X h => ⟨(hls A B X h).wf, (hls A B X h).rows, (hls A B X h).cols⟩) _
  obtain ⟨a1, a2, a3, a4, a5, a6, a7, a8⟩ := done_trained h hsh
  rw [C15_predict_iff] at hL
  obtain ⟨c1, c2, c3, c4, c5, c6, c7⟩ := hL
  rw [a3] at c2
  have hq0 : q0.length = r := Option.some.inj c2
  have hu : ∀ j : Nat, j + 1 < n.toNat → ∀ o ∈ t.after.ops, InputOK o.kind m (inputs.at t.after.hasInputs j) := by
    intro j hj o ho hio
    have hh : t.after.hasInputs = true := by
      rw [a1.inputs, any_eq_true]; exact ⟨o, ho, hio⟩
    have he := c4 hh
    rw [a7 hh] at he
    cases inputs with
    | arr a =>
      rw [hh]
      refine ⟨_, rfl, ?_⟩
      have hl : j < (atleast2d a).2.length := by have := he.2; omega
      rw [Opinf.getD_eq_getElem _ [] hl, hin a rfl _ (getElem_mem _)]
      exact Option.some.inj he.1
    | _ => exact he.elim
  have hlen : ∀ j : Nat, j < n.toNat → (L.getD j []).length = r := by
    intro j
    induction j with
    | zero => intro _; rw [c6, hq0]
    | succ j ih =>
      intro hj
      have hcal := c7 j hj
      rw [rhs_eq t.after r m a8 _ _ (ih (by omega)) (hu j hj)] at hcal
      rw [← Except.ok.inj hcal]
      exact length_rhsVal _ r m a8 _ _
  refine ⟨hq0, fun x hx => ?_⟩
  obtain ⟨j, hj, rfl⟩ := getElem_of_mem hx
  rw [← Opinf.getD_eq_getElem _ [] hj]
  exact hlen j (by rw [← c5]; exact hj)

/-- **C128** (predictions). For discrete-time data, where the next states are changed like the states: if the data determine
the operators, the second model predicts the images of what the first one predicts. -/
theorem C128_predict (lstsq : Mat K → Mat K → Except Err (Mat K)) (hls : ∀ A B X, lstsq A B = .ok X → IsLstsq A B X)
    (t t' : Training K (Plain K)) (r m : Nat) (h : t.Done (plainSolver lstsq) r m) (h' : t'.Done (plainSolver lstsq) r m)
    (T U : List (List K)) (hT : Inverts r T U) (c : List K) (hcl : c.length = r) (hk : Absorbs r t.before.toInfer c c)
    (hc : Affinely r m T c c t t') (hd : t.Decided r m)
    (q0 : List K) (n : Int)
    (inputs : PredInput K) (hin : ∀ a, inputs = .arr a → a.WF) (L : List (List K))
    (hL : t.after.predict q0 n inputs = .ok L) :
    t'.after.predict (affineMap T c q0) n inputs = .ok (L.map (affineMap T c)) := by
  have hsh : (plainSolver lstsq : SolverI K (Plain K)).Shaped r :=
    plainSolver_shaped lstsq (fun A B X h => ⟨(hls A B X h).wf, (hls A B X h).rows, (hls A B X h).cols⟩) _
  obtain ⟨a1, a2, a3, a4, a5, a6, a7, a8⟩ := done_trained h hsh
  obtain ⟨b1, b2, b3, b4, b5, b6, b7, b8⟩ := done_trained h' hsh
  have hkk := affine_kinds hc
  have hi : t'.after.hasInputs = t.after.hasInputs := by
    rw [b6, a6, h.inv.inputs, h'.inv.inputs, any_of_kinds hkk]
  have hcor := (C128_affine lstsq hls t t' r m h h' T U hT c c hcl hcl hk hc).2 hd
  rw [C15_predict_iff] at hL ⊢
  obtain ⟨c1, c2, c3, c4, c5, c6, c7⟩ := hL
  rw [a3] at c2
  have hq0 : q0.length = r := Option.some.inj c2
  have hu : ∀ j : Nat, j + 1 < n.toNat → ∀ o ∈ t.after.ops, InputOK o.kind m (inputs.at t.after.hasInputs j) := by
    intro j hj o ho hio
    have hh : t.after.hasInputs = true := by
      rw [a1.inputs, any_eq_true]; exact ⟨o, ho, hio⟩
    have he := c4 hh
    rw [a7 hh] at he
    cases inputs with
    | arr a =>
      rw [hh]
      refine ⟨_, rfl, ?_⟩
      have hl : j < (atleast2d a).2.length := by have := he.2; omega
      rw [Opinf.getD_eq_getElem _ [] hl, hin a rfl _ (getElem_mem _)]
      exact Option.some.inj he.1
    | _ => exact he.elim
  have hlen : ∀ j : Nat, j < n.toNat → (L.getD j []).length = r := by
    intro j
    induction j with
    | zero => intro _; rw [c6, hq0]
    | succ j ih =>
      intro hj
      have hcal := c7 j hj
      rw [rhs_eq t.after r m a8 _ _ (ih (by omega)) (hu j hj)] at hcal
      rw [← Except.ok.inj hcal]
      exact length_rhsVal _ r m a8 _ _
  have hget : ∀ j : Nat, j < n.toNat → (L.map (affineMap T c)).getD j [] = affineMap T c (L.getD j []) := by
    intro j hj
    rw [Opinf.getD_eq_getElem _ [] (by rw [length_map, c5]; exact hj), Opinf.getD_eq_getElem _ [] (by rw [c5]; exact hj),
      getElem_map]
  refine ⟨b4, by rw [b3, affineMap, length_vadd, length_matVec, hT.isMat.1, hcl, min_self], c3, fun hh => ?_,
    by rw [length_map, c5], ?_, fun j hj => ?_⟩
  · rw [b7 hh, ← a7 (hi ▸ hh)]
    exact c4 (hi ▸ hh)
  · rw [hget 0 (by omega), c6]
  · rw [hget j (by omega), hget (j + 1) hj, hi]
    obtain ⟨y, e1, e2⟩ := hcor (L.getD j []) (inputs.at t.after.hasInputs j) (hlen j (by omega)) (fun o ho => by
      have : o.kind ∈ t.after.ops.map Op.kind := by rw [a5]; exact mem_map_of_mem ho
      obtain ⟨p, hp, e⟩ := mem_map.1 this
      rw [← e]
      exact hu j hj p hp)
    rw [e2]
    rw [c7 j hj] at e1
    rw [Except.ok.inj e1]

end

/-- **C128** (models without known operators). If all operators of both models are to be learned, there is no condition on
known operators. -/
theorem C128_nothing_known {S S' : Type} [Field K] (M : Model K S) (M' : Model K S') (h : ∀ s ∈ M.slots, s.infer = true)
    (h' : ∀ s ∈ M'.slots, s.infer = true) {r : Nat} (T : List (List K)) (hT : IsMat r r T) (c : List K) (hc : c.length = r)
    (q : List K) (u : Option (List K)) (hq : q.length = r) :
    M'.knownPart.value (affineMap T c q) u = matVec T (M.knownPart.value q u) := by
  rw [affineMap, C126_nothing_known M' M' h' h' c hc (matVec T q) u (by rw [length_matVec, hT.1]),
    C119_nothing_known M M' h h' T hT q u hq]

/-! ### Non-vacuity -/

/-- A least-squares routine for two problems that fit exactly. -/
def affLs (A B : Mat ℚ) : Except Err (Mat ℚ) :=
  if A = ⟨3, 3, [[1, 0, 0], [1, 1, 1], [1, 2, 4]]⟩ ∧ B = ⟨3, 1, [[1], [3], [7]]⟩ then .ok ⟨3, 1, [[1], [1], [1]]⟩
  else if A = ⟨3, 3, [[1, 1, 1], [1, 3, 9], [1, 5, 25]]⟩ ∧ B = ⟨3, 1, [[3], [7], [15]]⟩ then
    .ok ⟨3, 1, [[5 / 2], [0], [1 / 2]]⟩
  else .error .linalg

theorem affLs_spec (A B X : Mat ℚ) (h : affLs A B = .ok X) : IsLstsq A B X := by
  unfold affLs at h
  split at h
  · rename_i hc
    obtain ⟨rfl, rfl⟩ := hc
    injection h with h
    subst h
    refine exact_lstsq (by decide) rfl rfl fun j hj => ?_
    match j, hj with
    | 0, _ => exact ⟨rfl, by decide +kernel⟩
  split at h
  · rename_i hc
    obtain ⟨rfl, rfl⟩ := hc
    injection h with h
    subst h
    refine exact_lstsq (by decide) rfl rfl fun j hj => ?_
    match j, hj with
    | 0, _ => exact ⟨rfl, by decide +kernel⟩
  · cases h

def affT (q z : List (List ℚ)) : Training ℚ (Plain ℚ) where
  before := cenModel [.const, .lin, .kron .quad]
  states := .mat 1 q
  lhs := .mat 1 z
  inputs := none
  after := ((cenModel [.const, .lin, .kron .quad]).fit (plainSolver affLs) (.mat 1 q) (.mat 1 z) none).1

theorem affT_done (q z : List (List ℚ)) (hq : ∀ x ∈ q, x.length = 1) (hz : ∀ x ∈ z, x.length = 1)
    (h : ((cenModel [.const, .lin, .kron .quad]).fit (plainSolver affLs) (.mat 1 q) (.mat 1 z) none).2 = .ok ()) :
    (affT q z).Done (plainSolver affLs) 1 0 :=
  ⟨cenModel_inv _ (by simp) rfl, rfl, hq, hz, (fun a h => by cases h), rfl, by omega, (fun a h => by cases h), Prod.ext rfl h⟩

/-- The data of `q ↦ 1 + q + q²`, and the same in the coordinates `2 q + 1`. -/
def affA : Training ℚ (Plain ℚ) := affT [[0], [1], [2]] [[1], [3], [7]]
def affB : Training ℚ (Plain ℚ) := affT [[1], [3], [5]] [[3], [7], [15]]

theorem affA_decided : affA.Decided 1 0 := by
  intro v hv h
  obtain ⟨a, b, e, rfl⟩ : ∃ a b e, v = [a, b, e] := by
    match v, hv with
    | [a, b, e], _ => exact ⟨a, b, e, rfl⟩
  have h0 := h ⟨[0], [1], none⟩ (by
    simp [Training.samples, argSamples, affA, affT, atleast2d, inputAt, range_succ])
  have h1 := h ⟨[1], [3], none⟩ (by
    simp [Training.samples, argSamples, affA, affT, atleast2d, inputAt, range_succ])
  have h2 := h ⟨[2], [7], none⟩ (by
    simp [Training.samples, argSamples, affA, affT, atleast2d, inputAt, range_succ])
  simp [affA, affT, cenModel, Model.toInfer, dataVector, OpKind.dataCol, dot, Kind.ckron, ckron2] at h0 h1 h2
  have hb : b = 0 := by linarith
  have he : e = 0 := by linarith
  simp [h0, hb, he]

theorem aff_inverts : Inverts 1 [[(2 : ℚ)]] [[1 / 2]] := by
  refine ⟨⟨rfl, by simp⟩, ⟨rfl, by simp⟩, fun x hx => ?_, fun x hx => ?_⟩ <;>
  · match x, hx with
    | [a], _ => simp [matVec, dot]

theorem aff_affinely : Affinely 1 0 [[2]] [1] [1] affA affB := by
  refine ⟨rfl, ?_, fun q u hq _ => ?_⟩
  · simp [Training.samples, argSamples, affA, affB, affT, atleast2d, inputAt, range_succ, affineMap, vadd, matVec, dot]
    norm_num
  · exact C128_nothing_known _ _ (by decide +kernel) (by decide +kernel) _ (by constructor <;> simp) _ rfl q u hq

-- all hypotheses of `C128_affine` and `C128_predict` hold for a quadratic model
example : affB.after.predict (affineMap [[2]] [1] [0]) 3 .none = .ok ([[0], [1], [3]].map (affineMap [[2]] [1])) :=
  C128_predict affLs affLs_spec affA affB 1 0 (affT_done _ _ (by decide) (by decide) (by decide +kernel))
    (affT_done _ _ (by decide) (by decide) (by decide +kernel)) [[2]] [[1 / 2]] aff_inverts [1] rfl
    (.inr ⟨cen_complete, .inl (by rw [show affA.before.toInfer = [.const, .lin, .kron .quad] from rfl]; simp)⟩) aff_affinely affA_decided [0] 3 .none
    (fun a h => by cases h) [[0], [1], [3]] (by decide +kernel)

example : (affB.after.ops.map Op.entries) = [some ⟨1, 1, [[5 / 2]]⟩, some ⟨1, 1, [[0]]⟩, some ⟨1, 1, [[1 / 2]]⟩] := by
  decide +kernel

end Opinf
