import Verif.Lemmas.Isometry
import Verif.Lemmas.InputChange
import Verif.Props.RomCoordinates

/-!
# C131: regularized training and orthogonal coordinates
-/

namespace Opinf

open List

variable {K : Type}

/-- An orthogonal change of the reduced coordinates; if the model has Kronecker operators, one that reorders the coordinates
and changes their signs. -/
structure OrthogonalFor [CommRing K] (kinds : List OpKind) (r : Nat) (T : List (List K)) : Prop where
  iso : IsIso r T
  kron : (∃ k, OpKind.kron k ∈ kinds) → ∃ p s, SignedPerm r T p s

section

variable [Field K]

theorem sum_over_range (n : Nat) (f : Nat → K) : ((range n).map f).sum = ∑ i ∈ Finset.range n, f i := by
  induction n with
  | zero => rfl
  | succ n ih => rw [range_succ, map_append, sum_append, ih, Finset.sum_range_succ]; simp

theorem zipWith_index (f : List K → List K → K) (A B : List (List K)) (n : Nat) (hA : A.length = n) (hB : B.length = n) :
    (zipWith f A B).sum = ∑ i ∈ Finset.range n, f (A.getD i []) (B.getD i []) := by
  have e : zipWith f A B = (range n).map fun i => f (A.getD i []) (B.getD i []) := by
    refine ext_getElem (by simp [hA, hB]) fun i h1 h2 => ?_
    have hi : i < n := by simpa using h2
    simp [hA, hB, hi]
  rw [e, sum_over_range]

theorem frob_adjoint {r w : Nat} {T O M : List (List K)} (hT : IsMat r r T) (hO : IsMat r w O) (hM : IsMat r w M) :
    (zipWith dot O (matMul w (transpose r T) M)).sum = (zipWith dot (matMul w T O) M).sum := by
  have row : ∀ {A B : List (List K)} (i : Nat), A.length = r → i < r → (matMul w A B).getD i [] = vecMat w (A.getD i []) B := by
    intro A B i hA hi
    rw [matMul, Opinf.getD_eq_getElem _ _ (by simpa [hA] using hi), getElem_map, Opinf.getD_eq_getElem _ _ (by rw [hA]; exact hi)]
  have hl : (transpose r T).length = r := by simp [transpose]
  rw [zipWith_index dot _ _ r hO.1 (by simp [matMul, transpose]), zipWith_index dot _ _ r (by simp [matMul, hT.1]) hM.1]
  have e1 : ∀ j ∈ Finset.range r, dot (O.getD j []) ((matMul w (transpose r T) M).getD j []) =
      ∑ i ∈ Finset.range r, (T.getD i []).getD j 0 * dot (O.getD j []) (M.getD i []) := by
    intro j hj
    have hj := Finset.mem_range.1 hj
    rw [row j hl hj, dot_comm', dot_vecMat w _ _ _ hM.2, dot_index _ _ r (by
      rw [Opinf.getD_eq_getElem _ _ (by rw [hl]; exact hj)]; simp [transpose, hT.1]) (by rw [length_matVec, hM.1]), sum_over_range]
    refine Finset.sum_congr rfl fun i hi => ?_
    have hi := Finset.mem_range.1 hi
    rw [getD_matVec, dot_comm' (M.getD i [])]
    congr 1
    have e3 : (transpose r T).getD j [] = T.map fun a => a.getD j 0 := by
      rw [Opinf.getD_eq_getElem _ _ (by rw [hl]; exact hj)]
      simp [transpose]
    rw [e3, Opinf.getD_eq_getElem _ _ (by simpa [hT.1] using hi), getElem_map, Opinf.getD_eq_getElem T _ (by rw [hT.1]; exact hi)]
  have e2 : ∀ i ∈ Finset.range r, dot ((matMul w T O).getD i []) (M.getD i []) =
      ∑ j ∈ Finset.range r, (T.getD i []).getD j 0 * dot (O.getD j []) (M.getD i []) := by
    intro i hi
    have hi := Finset.mem_range.1 hi
    rw [row i hT.1 hi, dot_vecMat w _ _ _ hO.2, dot_index _ _ r (by
      rw [Opinf.getD_eq_getElem _ _ (by rw [hT.1]; exact hi)]; exact hT.2 _ (getElem_mem _)) (by rw [length_matVec, hO.1]), sum_over_range]
    refine Finset.sum_congr rfl fun j hj => ?_
    rw [getD_matVec]
  rw [Finset.sum_congr rfl e1, Finset.sum_congr rfl e2, Finset.sum_comm]

theorem frob_rows {r w : Nat} {L Q H : List (List K)} (hL : IsMat w w L) (hQ : IsMat r w Q) (hH : IsMat r w H) :
    (zipWith dot Q (matMul w H L)).sum = (zipWith dot (Q.map (matVec L)) H).sum := by
  rw [zipWith_index dot _ _ r hQ.1 (by simp [matMul, hH.1]), zipWith_index dot _ _ r (by simp [hQ.1]) hH.1]
  refine Finset.sum_congr rfl fun i hi => ?_
  have hi := Finset.mem_range.1 hi
  rw [matMul, Opinf.getD_eq_getElem (H.map _) _ (by simpa [hH.1] using hi), getElem_map,
    Opinf.getD_eq_getElem (Q.map _) _ (by simpa [hQ.1] using hi), getElem_map,
    Opinf.getD_eq_getElem Q _ (by rw [hQ.1]; exact hi), Opinf.getD_eq_getElem H _ (by rw [hH.1]; exact hi),
    dot_comm', dot_vecMat w _ _ _ hL.2, dot_comm']

theorem frob_scale {r w : Nat} {A B : List (List K)} (hA : IsMat r w A) (hB : IsMat r w B) (c : K) :
    (zipWith (fun a b => c * dot a b) A B).sum = c * (zipWith dot A B).sum := by
  rw [zipWith_index _ _ _ r hA.1 hB.1, zipWith_index _ _ _ r hA.1 hB.1, Finset.mul_sum]

end

section

variable [Field K] [LinearOrder K] [IsStrictOrderedRing K]

theorem isometric_core {S S' : Type} {r m : Nat} {T : List (List K)} {lam : K}
    {t : Training K S} {t' : Training K S'} (hT : OrthogonalFor t.before.toInfer r T)
    (hc : Affinely r m T (replicate r 0) (replicate r 0) t t') {O O' : Mat K}
    (h : t.Fitted r m (fun a b => lam ^ 2 * dot a b) O) (h' : t'.Fitted r m (fun a b => lam ^ 2 * dot a b) O') :
    (∀ x ∈ t.samples, FollowsAffinely T (replicate r 0) (replicate r 0) t.after t'.after x.q x.u) ∧
      (lam ≠ 0 ∨ t.Decided r m → ∀ q u, q.length = r → (∀ o ∈ t.before.ops, InputOK o.kind m u) →
        FollowsAffinely T (replicate r 0) (replicate r 0) t.after t'.after q u) := by
  have hkinds := affine_kinds hc
  obtain ⟨c1, hsam, c6⟩ := hc
  have hinf : t'.before.toInfer = t.before.toInfer := by
    have e : ∀ l : List (Slot K), ((l.map fun s => (s.op.kind, s.infer)).filter Prod.snd).map Prod.fst =
        (l.filter Slot.infer).map fun s => s.op.kind := fun l => by rw [filter_map, map_map]; rfl
    rw [Model.toInfer, Model.toInfer, ← e, ← e, c1]
  have hok : ∀ u : Option (List K), (∀ o ∈ t.before.ops, InputOK o.kind m u) → ∀ o ∈ t'.before.ops, InputOK o.kind m u := by
    intro u hu o ho
    have : o.kind ∈ t.before.ops.map Op.kind := by rw [← hkinds]; exact mem_map_of_mem ho
    obtain ⟨p, hp, e⟩ := mem_map.1 this
    rw [← e]
    exact hu p hp
  have hw : t'.width r m = t.width r m := by rw [Training.width, hinf]; rfl
  have hf : ∀ q u, t'.features q u = t.features q u := fun q u => by rw [Training.features, hinf]; rfl
  obtain ⟨w, hwd⟩ : ∃ w, w = t.width r m := ⟨_, rfl⟩
  have hwe : (t.before.toInfer.map fun o => o.dim r m).sum = w := hwd.symm
  have hTl : ∀ v : List K, (matVec T v).length = r := fun v => by rw [length_matVec, hT.iso.isMat.1]
  have zT : ∀ v, affineMap T (replicate r 0) v = matVec T v := fun v => by rw [affineMap, vadd_zeros_right _ _ (hTl v)]
  have rO : O.rows.length = r := by rw [h.has.wf.1, h.has.nrows]
  have cO : ∀ a ∈ O.rows, a.length = w := fun a ha => by rw [h.has.wf.2 a ha, h.has.ncols, hwd]
  have cO' : ∀ a ∈ O'.rows, a.length = w := fun a ha => by rw [h'.has.wf.2 a ha, h'.has.ncols, hw, hwd]
  have rO' : O'.rows.length = r := by rw [h'.has.wf.1, h'.has.nrows]
  have mm : ∀ {a b : Nat} {A B : List (List K)}, IsMat a b A → (∀ x ∈ B, x.length = w) → IsMat a w (matMul w A B) := by
    intro a b A B hA hB
    refine ⟨by simp [matMul, hA.1], fun x hx => ?_⟩
    obtain ⟨y, _, rfl⟩ := mem_map.1 hx
    exact length_vecMat _ _ _ hB
  obtain ⟨L, hLi, hLf⟩ := iso_features (m := m) hT.iso hT.kron
  rw [hwe] at hLi
  have hL := hLi.isMat
  have fT : ∀ q u, q.length = r → (∀ o ∈ t.before.ops, InputOK o.kind m u) →
      matVec L (t.features q u) = t.features (matVec T q) u := fun q u hq hu => hLf q u hq (toInfer_ok hu)
  have hTO : IsMat r w (matMul w T O.rows) := mm hT.iso.isMat cO
  have fl : ∀ q u, q.length = r → (∀ o ∈ t.before.ops, InputOK o.kind m u) → (t.features q u).length = w := fun q u hq hu => by
    rw [hwd]; exact dataVector_length _ hq (toInfer_ok hu)
  have hP : IsMat r w ((matMul w T O.rows).map (matVec L)) := by
    refine ⟨by rw [length_map, hTO.1], fun x hx => ?_⟩
    obtain ⟨y, _, rfl⟩ := mem_map.1 hx
    rw [length_matVec, hL.1]
  have fP : ∀ q u, q.length = r → (∀ o ∈ t.before.ops, InputOK o.kind m u) →
      matVec ((matMul w T O.rows).map (matVec L)) (t.features (matVec T q) u) =
        matVec T (matVec O.rows (t.features q u)) := fun q u hq hu => by
    rw [← matVec_matMul _ _ _ _ cO, ← fT q u hq hu, matVec, map_map, matVec]
    refine map_congr_left fun a ha => ?_
    exact hLi.dots _ _ (hTO.2 a ha) (fl q u hq hu)
  have tr : IsMat r r (transpose r T) := by
    refine ⟨by simp [transpose], fun a ha => ?_⟩
    obtain ⟨i, _, rfl⟩ := mem_map.1 ha
    simp [hT.iso.isMat.1]
  obtain ⟨d1, d2⟩ := C116_determined h' ⟨r, w, (matMul w T O.rows).map (matVec L)⟩ hP rfl (by rw [hw, hwd])
    (fun H hH g1 g2 => by
      rw [hw, ← hwd] at g2
      have hHr : H.rows.length = r := by rw [hH.1, g1]
      have hHc : ∀ a ∈ H.rows, a.length = w := fun a ha => by rw [hH.2 a ha, g2]
      have hHL : IsMat r w (matMul w H.rows L) := mm (b := w) ⟨hHr, hHc⟩ hL.2
      have hQ := mm tr hHL.2
      have key := h.orthogonal ⟨r, w, matMul w (transpose r T) (matMul w H.rows L)⟩ hQ rfl hwd
      rw [frob_scale ⟨rO, cO⟩ hQ, frob_adjoint hT.iso.isMat ⟨rO, cO⟩ hHL, frob_rows hL hTO ⟨hHr, hHc⟩] at key
      rw [frob_scale hP ⟨hHr, hHc⟩]
      refine Eq.trans ?_ key
      rw [hsam, map_map]
      refine congrArg List.sum (map_congr_left fun x hx => ?_)
      obtain ⟨a1, a2, a3⟩ := h.has.samples x hx
      have k1 := (h.has.output _ _ a1 a3).2
      have hv := h.has.value hx
      have c6' := c6 x.q x.u a1 a3
      rw [zT] at c6'
      simp only [Function.comp_apply]
      rw [hf, zT, zT, fP x.q x.u a1 a3, c6',
        ← matVec_vadd T _ _ (by rw [length_matVec, rO, k1]), ← matVec_vsub T _ _ (by
          rw [length_vadd, length_matVec, rO, k1, a2, min_self]), ← fT x.q x.u a1 a3,
        ← matVec_matMul _ _ _ _ hL.2, ← hv.2.1, matVec_matMul _ _ _ _ hHL.2, dot_comm',
        matVec_transpose r T _ hT.iso.isMat.2, dot_comm' (t.gap x), dot_vecMat r _ _ _ hT.iso.isMat.2]
      rfl)
  have at_samples : ∀ x ∈ t.samples, matVec O'.rows (t.features (matVec T x.q) x.u) =
      matVec T (matVec O.rows (t.features x.q x.u)) := by
    intro x hx
    obtain ⟨a1, a2, a3⟩ := h.has.samples x hx
    have := d1 ⟨affineMap T (replicate r 0) x.q, affineMap T (replicate r 0) x.z, x.u⟩ (by
      rw [hsam]; exact mem_map.2 ⟨x, hx, rfl⟩)
    simp only at this
    rw [hf, zT, fP x.q x.u a1 a3] at this
    exact this.symm
  have out : ∀ q u, q.length = r → (∀ o ∈ t.before.ops, InputOK o.kind m u) →
      matVec O'.rows (t.features (matVec T q) u) = matVec T (matVec O.rows (t.features q u)) →
      FollowsAffinely T (replicate r 0) (replicate r 0) t.after t'.after q u := by
    intro q u hq hu he
    obtain ⟨f1, f1'⟩ := h.has.output q u hq hu
    obtain ⟨f2, -⟩ := h'.has.output (matVec T q) u (hTl q) (hok u hu)
    have c6' := c6 q u hq hu
    rw [zT] at c6'
    refine ⟨_, f1, ?_⟩
    rw [zT, zT, f2, hf, he, c6', matVec_vadd T _ _ (by rw [length_matVec, rO, f1'])]
  refine ⟨fun x hx => out x.q x.u (h.has.samples x hx).1 (h.has.samples x hx).2.2 (at_samples x hx), fun hdec q u hq hu =>
    out q u hq hu ?_⟩
  rcases hdec with hlam | hdec
  · have e := d2 (.inl fun v _ hv y hy => ?_)
    · rw [← e]
      exact fP q u hq hu
    · rw [mul_eq_zero, or_iff_right (pow_ne_zero 2 hlam), ← sumSq_eq_dot] at hv
      have := sumSq_eq_zero v hv
      rw [this] at hy
      exact eq_of_mem_replicate hy
  have hA : IsMat r w (matMul w O'.rows L) := mm (b := w) ⟨rO', cO'⟩ hL.2
  have hAB : matMul w O'.rows L = matMul w T O.rows := by
    refine ext_getElem (by rw [hA.1, hTO.1]) fun i i1 i2 => ?_
    have l1 := hA.2 _ (getElem_mem i1)
    have l2 := hTO.2 _ (getElem_mem i2)
    refine vsub_zero_mem (by rw [l1, l2]) (hdec _ (by rw [length_vsub, l1, l2, min_self, hwd]; rfl) fun x hx => ?_)
    obtain ⟨a1, a2, a3⟩ := h.has.samples x hx
    have e := at_samples x hx
    rw [← fT x.q x.u a1 a3, ← matVec_matMul _ _ _ _ hL.2, ← matVec_matMul _ _ _ _ cO] at e
    have e := congrArg (fun l => l.getD i 0) e
    simp only [getD_matVec] at e
    rw [Opinf.getD_eq_getElem _ [] i1, Opinf.getD_eq_getElem _ [] i2] at e
    rw [dot_vsub_left _ _ _ (by rw [l1, l2])]
    exact sub_eq_zero.2 e
  rw [← fT q u hq hu, ← matVec_matMul _ _ _ _ hL.2, hAB, matVec_matMul _ _ _ _ cO]

/-! ### Property theorems -/

/-- **C131.** Train a model with the scalar regularizer `λ` of `L2Solver`, and train it again in orthogonal coordinates: with
`T q` instead of every state `q` and `T z` instead of every left-hand side `z`, where `T` is orthogonal and, if quadratic or
cubic operators are learned, reorders the coordinates and changes signs. The second model at `T q` is `T y`, where `y` is the
first model at `q`: at all training samples, and for all states and inputs if `λ ≠ 0` or the data determine the operators. -/
theorem C131_orthogonal (svd : Mat K → Except Err (Svd K)) (hsvd : ∀ D u, svd D = .ok u → IsSVD D u)
    (t t' : Training K (L2 K K)) (r m : Nat) (lam : K) (h : t.Done (l2Solver svd) r m) (h' : t'.Done (l2Solver svd) r m)
    (hlam : ∀ s ∈ t.before.solver, s.reg = some lam) (hlam' : ∀ s ∈ t'.before.solver, s.reg = some lam)
    (T : List (List K)) (hT : OrthogonalFor t.before.toInfer r T)
    (hc : Affinely r m T (replicate r 0) (replicate r 0) t t') :
    (∀ x ∈ t.samples, FollowsAffinely T (replicate r 0) (replicate r 0) t.after t'.after x.q x.u) ∧
      (lam ≠ 0 ∨ t.Decided r m → ∀ q u, q.length = r → (∀ o ∈ t.before.ops, InputOK o.kind m u) →
        FollowsAffinely T (replicate r 0) (replicate r 0) t.after t'.after q u) := by
  obtain ⟨O, hO⟩ := C116_l2 svd hsvd t r m lam h hlam
  obtain ⟨O', hO'⟩ := C116_l2 svd hsvd t' r m lam h' hlam'
  exact isometric_core hT hc hO hO'

/-- The states that a trained model predicts have its dimension. -/
theorem l2_predicted_lengths (svd : Mat K → Except Err (Svd K)) (hsvd : ∀ D u, svd D = .ok u → IsSVD D u)
    (t : Training K (L2 K K)) (r m : Nat) (h : t.Done (l2Solver svd) r m) (q0 : List K) (n : Int)
    (inputs : PredInput K) (hin : ∀ a, inputs = .arr a → a.WF) (L : List (List K))
    (hL : t.after.predict q0 n inputs = .ok L) : q0.length = r ∧ ∀ x ∈ L, x.length = r := by
  have hsh : (l2Solver svd : SolverI K (L2 K K)).Shaped r :=
    l2Solver_shaped svd (fun D u h => ⟨(hsvd D u h).psiWF, (hsvd D u h).psiCols⟩) _
  obtain ⟨a1, a2, a3, a4, a5, a6, a7, a8⟩ := done_trained h hsh
  rw [C15_predict_iff] at hL
  obtain ⟨c1, c2, c3, c4, c5, c6, c7⟩ := hL
  rw [a3] at c2
  have hq0 : q0.length = r := Option.some.inj c2
  have hu : ∀ j : Nat, j + 1 < n.toNat → ∀ o ∈ t.after.ops, InputOK o.kind m (inputs.at t.after.hasInputs j) := by
    intro j hj o ho hio
    have hh : t.after.hasInputs = true := by
      rw [a1.inputs, any_eq_true]; exact ⟨o, ho, hio⟩
    have he := c4 hh
    rw [a7 hh] at he
    cases inputs with
    | arr a =>
      rw [hh]
      refine ⟨_, rfl, ?_⟩
      have hl : j < (atleast2d a).2.length := by have := he.2; omega
      rw [Opinf.getD_eq_getElem _ [] hl, hin a rfl _ (getElem_mem _)]
      exact Option.some.inj he.1
    | _ => exact he.elim
  have hlen : ∀ j : Nat, j < n.toNat → (L.getD j []).length = r := by
    intro j
    induction j with
    | zero => intro _; rw [c6, hq0]
    | succ j ih =>
      intro hj
      have hcal := c7 j hj
      rw [rhs_eq t.after r m a8 _ _ (ih (by omega)) (hu j hj)] at hcal
      rw [← Except.ok.inj hcal]
      exact length_rhsVal _ r m a8 _ _
  refine ⟨hq0, fun x hx => ?_⟩
  obtain ⟨j, hj, rfl⟩ := getElem_of_mem hx
  rw [← Opinf.getD_eq_getElem _ [] hj]
  exact hlen j (by rw [← c5]; exact hj)

/-- **C131** (predictions). For discrete-time data the second model predicts the images of what the first one predicts, if
`λ ≠ 0` or the data determine the operators. -/
theorem C131_predict (svd : Mat K → Except Err (Svd K)) (hsvd : ∀ D u, svd D = .ok u → IsSVD D u)
    (t t' : Training K (L2 K K)) (r m : Nat) (lam : K) (h : t.Done (l2Solver svd) r m) (h' : t'.Done (l2Solver svd) r m)
    (hlam : ∀ s ∈ t.before.solver, s.reg = some lam) (hlam' : ∀ s ∈ t'.before.solver, s.reg = some lam)
    (T : List (List K)) (hT : OrthogonalFor t.before.toInfer r T)
    (hc : Affinely r m T (replicate r 0) (replicate r 0) t t') (hd : lam ≠ 0 ∨ t.Decided r m)
    (q0 : List K) (n : Int) (inputs : PredInput K) (hin : ∀ a, inputs = .arr a → a.WF) (L : List (List K))
    (hL : t.after.predict q0 n inputs = .ok L) :
    t'.after.predict (affineMap T (replicate r 0) q0) n inputs = .ok (L.map (affineMap T (replicate r 0))) := by
  have hsh : (l2Solver svd : SolverI K (L2 K K)).Shaped r :=
    l2Solver_shaped svd (fun D u h => ⟨(hsvd D u h).psiWF, (hsvd D u h).psiCols⟩) _
  obtain ⟨a1, a2, a3, a4, a5, a6, a7, a8⟩ := done_trained h hsh
  obtain ⟨b1, b2, b3, b4, b5, b6, b7, b8⟩ := done_trained h' hsh
  have hkk := affine_kinds hc
  have hi : t'.after.hasInputs = t.after.hasInputs := by
    rw [b6, a6, h.inv.inputs, h'.inv.inputs, any_of_kinds hkk]
  have hcor := (C131_orthogonal svd hsvd t t' r m lam h h' hlam hlam' T hT hc).2 hd
  rw [C15_predict_iff] at hL ⊢
  obtain ⟨c1, c2, c3, c4, c5, c6, c7⟩ := hL
  rw [a3] at c2
  have hq0 : q0.length = r := Option.some.inj c2
  have hu : ∀ j : Nat, j + 1 < n.toNat → ∀ o ∈ t.after.ops, InputOK o.kind m (inputs.at t.after.hasInputs j) := by
    intro j hj o ho hio
    have hh : t.after.hasInputs = true := by
      rw [a1.inputs, any_eq_true]; exact ⟨o, ho, hio⟩
    have he := c4 hh
    rw [a7 hh] at he
    cases inputs with
    | arr a =>
      rw [hh]
      refine ⟨_, rfl, ?_⟩
      have hl : j < (atleast2d a).2.length := by have := he.2; omega
      rw [Opinf.getD_eq_getElem _ [] hl, hin a rfl _ (getElem_mem _)]
      exact Option.some.inj he.1
    | _ => exact he.elim
  have hlen : ∀ j : Nat, j < n.toNat → (L.getD j []).length = r := by
    intro j
    induction j with
    | zero => intro _; rw [c6, hq0]
    | succ j ih =>
      intro hj
      have hcal := c7 j hj
      rw [rhs_eq t.after r m a8 _ _ (ih (by omega)) (hu j hj)] at hcal
      rw [← Except.ok.inj hcal]
      exact length_rhsVal _ r m a8 _ _
  have hget : ∀ j : Nat, j < n.toNat → (L.map (affineMap T (replicate r 0))).getD j [] = affineMap T (replicate r 0) (L.getD j []) := by
    intro j hj
    rw [Opinf.getD_eq_getElem _ [] (by rw [length_map, c5]; exact hj), Opinf.getD_eq_getElem _ [] (by rw [c5]; exact hj),
      getElem_map]
  refine ⟨b4, by rw [b3, affineMap, length_vadd, length_matVec, hT.iso.isMat.1, length_replicate, min_self], c3, fun hh => ?_,
    by rw [length_map, c5], ?_, fun j hj => ?_⟩
  · rw [b7 hh, ← a7 (hi ▸ hh)]
    exact c4 (hi ▸ hh)
  · rw [hget 0 (by omega), c6]
  · rw [hget j (by omega), hget (j + 1) hj, hi]
    obtain ⟨y, e1, e2⟩ := hcor (L.getD j []) (inputs.at t.after.hasInputs j) (hlen j (by omega)) (fun o ho => by
      have : o.kind ∈ t.after.ops.map Op.kind := by rw [a5]; exact mem_map_of_mem ho
      obtain ⟨p, hp, e⟩ := mem_map.1 this
      rw [← e]
      exact hu j hj p hp)
    rw [e2]
    rw [c7 j hj] at e1
    rw [Except.ok.inj e1]


/-- **C131** (reduced-order models). Train two reduced-order models with fully discrete models of the same structure with the
same trajectories and the same regularizer `λ` of `L2Solver`. If their encodings of the training states and of the initial
state differ by an orthogonal matrix as above, if related reduced states are decoded to the same, and if `λ ≠ 0` or the data
determine the operators, then every prediction of the first one is a prediction of the second one. -/
theorem C131_rom {T B T' B' : Type} (svd : Mat K → Except Err (Svd K)) (hsvd : ∀ D u, svd D = .ok u → IsSVD D u)
    (F G : FRom K T B (L2 K K)) (F' G' : FRom K T' B' (L2 K K))
    (hF : F.rom.continuous = false) (hF' : F'.rom.continuous = false) (hM : F.model.Inv) (hM' : F'.model.Inv)
    (hint : F.model.intrusive = false) (hint' : F'.model.intrusive = false)
    (hsl : F'.model.slots.map (fun s => (s.op.kind, s.infer)) = F.model.slots.map fun s => (s.op.kind, s.infer))
    (hall : ∀ s ∈ F.model.slots, s.infer = true) (r m : Nat) (hr : 0 < r) (lam : K)
    (hlam : ∀ s ∈ F.model.solver, s.reg = some lam) (hlam' : ∀ s ∈ F'.model.solver, s.reg = some lam)
    (A : List (List K)) (hA : OrthogonalFor F.model.toInfer r A) (hasU : Bool) (xs : List (TrajArgs K))
    (hu : hasU = true → ∀ x ∈ xs, x.u.WF ∧ (∀ k, (x.u.firstCols k).nrows = m) ∧
      ∀ e, F.rom.encode1 x.q = .ok e → e.ncolumns ≤ x.u.ncolumns + 1)
    (h : F.fitAll (l2Solver svd) false hasU false false xs = (G, .ok ()))
    (h' : F'.fitAll (l2Solver svd) false hasU false false xs = (G', .ok ()))
    (hdet : lam ≠ 0 ∨ ∀ d, F.processAll false hasU false false xs = (F, .ok d) →
      Determines F.model.toInfer (F.model.toInfer.map fun o => o.dim r m).sum d.samples)
    (henc : ∀ x ∈ xs, EncodesAffinely r A (replicate r 0) F.rom F'.rom x.q)
    (hdec : DecodesAffinely r A (replicate r 0) F.rom F'.rom)
    (q0 : Snap K) (hq0 : EncodesAffinely r A (replicate r 0) F.rom F'.rom q0) (hq0' : ∃ y', F'.rom.encode1 q0 = .ok y')
    (n : Int) (inputs : PredInput K) (hin : ∀ a, inputs = .arr a → a.WF) (p : Snap K)
    (hp : G.predict q0 n inputs = .ok p) : G'.predict q0 n inputs = .ok p := by
  obtain ⟨R1, d, g1, g2, -, g3⟩ := fitAll_training _ F G hM hint false hasU false false xs h
  obtain ⟨R1', d', g1', g2', -, g3'⟩ := fitAll_training _ F' G' hM' hint' false hasU false false xs h'
  obtain rfl := (process_keeps_rest F R1 _ _ _ _ xs d g1).2 ⟨rfl, rfl⟩
  obtain rfl := (process_keeps_rest F' R1' _ _ _ _ xs d' g1').2 ⟨rfl, rfl⟩
  obtain ⟨d1, d2, d3, d4, d5, d6, d7⟩ := affinely_data R1 R1' hF hF' hasU xs henc
    (fun hh x hx => ⟨(hu hh x hx).1, (hu hh x hx).2.2⟩) d d' g1 g1'
  have hrow : ∀ D : TrainData K, D.inputs.isSome = hasU → (∀ us ∈ D.inputs, ∀ U ∈ us, ∃ x ∈ xs, ∃ k, U = x.u.firstCols k) →
      ∀ us ∈ D.inputs, ∀ U ∈ us, U.nrows = m := by
    intro D hD hx us hus U hU
    obtain ⟨x, hx, k, rfl⟩ := hx us hus U hU
    exact (hu (by rw [← hD, Option.isSome_iff_exists]; exact ⟨us, hus⟩) x hx).2.1 k
  have hsome : ∀ {T B S : Type} (F : FRom K T B S) (d : TrainData K),
      F.processAll false hasU false false xs = (F, .ok d) → d.inputs.isSome = hasU := by
    intro T B S F d h
    obtain ⟨ts, rfl, -⟩ := C110_each_alone F F false hasU false false xs d h
    cases hasU <;> rfl
  obtain ⟨t, t1, t2, t3, t4⟩ := g3 r m hr d1 d3 (hrow d (hsome R1 d g1) d5)
  obtain ⟨t', t1', t2', t3', t4'⟩ := g3' r m hr d2 d4 (hrow d' (hsome R1' d' g1') d6)
  have hall' : ∀ s ∈ R1'.model.slots, s.infer = true := by
    intro s hs
    have : (s.op.kind, s.infer) ∈ R1.model.slots.map fun s => (s.op.kind, s.infer) := by
      rw [← hsl]; exact mem_map.2 ⟨s, hs, rfl⟩
    obtain ⟨s', hs', e⟩ := mem_map.1 this
    rw [← (Prod.mk.inj e).2]
    exact hall s' hs'
  have haff : Affinely r m A (replicate r 0) (replicate r 0) t t' := by
    refine ⟨by rw [t1, t1']; exact hsl, by rw [t3, t3']; exact d7, fun q u hq _ => ?_⟩
    rw [t1, t1']
    exact C128_nothing_known _ _ hall hall' A hA.iso.isMat _ (by simp) q u hq
  have hdec' : lam ≠ 0 ∨ t.Decided r m := by
    rcases hdet with hl | hdet
    · exact .inl hl
    · right
      rw [Training.Decided, t1, t3]
      exact hdet d g1
  rw [FRom.predict, C47_predict] at hp ⊢
  obtain ⟨z, zs, p1, p2, p3⟩ := hp
  rw [g2] at p1 p3
  rw [g2']
  obtain ⟨y', hy'⟩ := hq0'
  have hz := hq0 z y' p1 hy'
  cases z with
  | mat k rows => cases p2
  | vec z =>
    cases y' with
    | mat k rows => exact hz.elim
    | vec z' =>
      obtain ⟨hz1, rfl⟩ := hz
      simp only [Model.predictArr] at p2
      cases hL : G.model.predict z n inputs with
      | error e => rw [hL] at p2; cases p2
      | ok L =>
        rw [hL] at p2
        cases p2
        rw [← t2] at hL
        have hlen := (l2_predicted_lengths svd hsvd t r m t4 z n inputs hin L hL).2
        have hL' := C131_predict svd hsvd t t' r m lam t4 t4' (by rw [t1]; exact hlam) (by rw [t1']; exact hlam') A
          (by rw [t1]; exact hA) haff hdec' z n inputs hin L hL
        rw [t2'] at hL'
        have hl2 : (affineMap A (replicate r 0) z).length = r := by rw [affineMap, length_vadd, length_matVec, hA.iso.isMat.1, length_replicate, min_self]
        have hlen' : ∀ x ∈ L.map (affineMap A (replicate r 0)), x.length = r := by
          intro x hx
          obtain ⟨y, _, rfl⟩ := mem_map.1 hx
          rw [affineMap, length_vadd, length_matVec, hA.iso.isMat.1, length_replicate, min_self]
        refine ⟨.vec (affineMap A (replicate r 0) z), columnsSnap r (L.map (affineMap A (replicate r 0))), hy', ?_, hdec _ _ p ?_ p3⟩
        · simp only [Model.predictArr]
          rw [hL', hl2]
          rfl
        · rw [hz1]
          obtain ⟨w1, w2⟩ := columnList_columnsSnap r L hlen
          obtain ⟨w3, w4⟩ := columnList_columnsSnap r (L.map (affineMap A (replicate r 0))) hlen'
          exact ⟨w1, w3, by simp [transpose], by simp [transpose], by
            refine w4.trans ?_
            exact congrArg (map (affineMap A (replicate r 0))) w2.symm⟩


omit [LinearOrder K] [IsStrictOrderedRing K] in
/-- Matrices that preserve inner products have their transposes as inverses, and the other way round. -/
theorem iso_of_inverts {r : Nat} {A : List (List K)} (hA : Inverts r A (transpose r A)) : IsIso r A :=
  ⟨hA.isMat, fun x y hx _ => dot_rotated hA x y hx⟩

/-- **C131** (signs and order of the basis vectors). The predictions of two reduced-order models whose linear bases differ by
an orthogonal matrix as above, for instance by the signs or the order of the basis vectors, are the same, for fully discrete
models of the same structure that are trained with the same trajectories and the same regularizer `λ ≠ 0` of `L2Solver`. -/
theorem C131_bases {T : Type} (svd : Mat K → Except Err (Svd K)) (hsvd : ∀ D u, svd D = .ok u → IsSVD D u)
    (F F' G G' : FRom K T (LinB K) (L2 K K))
    (hF : F.rom.continuous = false) (hM : F.model.Inv) (hM' : F'.model.Inv)
    (hint : F.model.intrusive = false) (hint' : F'.model.intrusive = false)
    (hsl : F'.model.slots.map (fun s => (s.op.kind, s.infer)) = F.model.slots.map fun s => (s.op.kind, s.infer))
    (hall : ∀ s ∈ F.model.slots, s.infer = true) (r m n : Nat) (hr : 0 < r) (lam : K) (hne : lam ≠ 0)
    (hlam : ∀ s ∈ F.model.solver, s.reg = some lam) (hlam' : ∀ s ∈ F'.model.solver, s.reg = some lam)
    (A : List (List K)) (hA : Inverts r A (transpose r A))
    (hkr : (∃ k, OpKind.kron k ∈ F.model.toInfer) → ∃ p s, SignedPerm r A p s)
    (b b' : LinB K) (hb : F.rom.basis = some (linI, b))
    (hR : F'.rom = { F.rom with basis := some (linI, b') }) (hrot : RotatedBasis r n A b b') (hasU : Bool)
    (xs : List (TrajArgs K)) (hxs : ∀ x ∈ xs, F.rom.Rectangular x.q)
    (hu : hasU = true → ∀ x ∈ xs, x.u.WF ∧ (∀ k, (x.u.firstCols k).nrows = m) ∧
      ∀ e, F.rom.encode1 x.q = .ok e → e.ncolumns ≤ x.u.ncolumns + 1)
    (h : F.fitAll (l2Solver svd) false hasU false false xs = (G, .ok ()))
    (h' : F'.fitAll (l2Solver svd) false hasU false false xs = (G', .ok ()))
    (q0 : Snap K) (hq0 : F.rom.Rectangular q0) (N : Int)
    (inputs : PredInput K) (hin : ∀ a, inputs = .arr a → a.WF) (p : Snap K) (hp : G.predict q0 N inputs = .ok p) :
    G'.predict q0 N inputs = .ok p := by
  obtain ⟨c1, c2, c3⟩ := C129_rotated hA F.rom F'.rom b b' hb hR hrot
  refine C131_rom svd hsvd F G F' G' hF (by rw [hR]; exact hF) hM hM' hint hint' hsl hall r m hr lam hlam hlam' A
    ⟨iso_of_inverts hA, hkr⟩ hasU xs hu h h' (.inl hne) (fun x hx => c1 x.q (hxs x hx)) c3 q0 (c1 q0 hq0) ?_ N inputs hin p hp
  obtain ⟨R1, d, g1, g2, -, -⟩ := fitAll_training _ F G hM hint false hasU false false xs h
  obtain rfl := (process_keeps_rest F R1 _ _ _ _ xs d g1).2 ⟨rfl, rfl⟩
  rw [FRom.predict, C47_predict] at hp
  obtain ⟨z, zs, p1, -, -⟩ := hp
  rw [g2] at p1
  exact c2 q0 z p1

end

/-- **C131** (where it ends). The restriction for quadratic and cubic operators is needed: rotations do not act orthogonally
on the non-redundant products of the coordinates, so the regularization term is another one in rotated coordinates. -/
theorem C131_rotation_products : ∃ T : List (List ℚ), IsIso 2 T ∧ ¬ IsoBlock (.kron .quad) 2 0 T := by
  refine ⟨[[3 / 5, -4 / 5], [4 / 5, 3 / 5]], ⟨⟨rfl, by simp⟩, fun x y hx hy => ?_⟩, ?_⟩
  · match x, y, hx, hy with
    | [a, b], [c, d], _, _ =>
      simp [matVec, dot]
      ring
  · rintro ⟨L, h1, h2⟩
    have e := h2 [1, 0] none rfl (fun h => by cases h)
    have e1 : OpKind.dataCol (.kron .quad) [(1 : ℚ), 0] [] = [1, 0, 0] := by decide +kernel
    have e2 : OpKind.dataCol (.kron .quad) (matVec [[3 / 5, -4 / 5], [4 / 5, 3 / 5]] [(1 : ℚ), 0]) [] =
        [9 / 25, 12 / 25, 16 / 25] := by decide +kernel
    simp only [Option.getD_none] at e
    rw [e1, e2] at e
    have d := h1.dots [1, 0, 0] [1, 0, 0] rfl rfl
    rw [e] at d
    exact absurd d (by decide +kernel)

/-! ### Non-vacuity -/

/-- A quadratic model with an `L2Solver` with regularizer 1. -/
def quadL2 : Model ℚ (L2 ℚ ℚ) := ⟨[⟨⟨.kron .quad, none⟩, true⟩], false, none, some 0, false, some ⟨some 1, none, none⟩⟩

theorem quadL2_inv : quadL2.Inv := by
  refine ⟨?_, rfl, ?_, fun _ => rfl, fun _ => ⟨⟨⟨.kron .quad, none⟩, true⟩, by simp [quadL2], rfl⟩⟩
  · intro s hs E hE
    simp only [quadL2, mem_cons, not_mem_nil, or_false] at hs
    subst hs
    cases hE
  · intro s hs
    simp only [quadL2, mem_cons, not_mem_nil, or_false] at hs
    subst hs
    simp

theorem flip_perm : SignedPerm (K := ℚ) 1 [[-1]] (fun i => i) fun _ => -1 := by
  refine ⟨⟨rfl, by simp⟩, fun x hx => ?_, fun i h => h, fun i j _ _ h => h, fun i _ => by norm_num⟩
  match x, hx with
  | [a], _ => simp [matVec, dot, range_succ]

def quadRom (b : LinB ℚ) : FRom ℚ Unit (LinB ℚ) (L2 ℚ ℚ) := ⟨⟨none, none, some (linI, b), false⟩, none, quadL2⟩
def squareTraj : TrajArgs ℚ := ⟨.mat 2 [[1, 2]], .vec [], .vec []⟩
def quadFit (b : LinB ℚ) : FRom ℚ Unit (LinB ℚ) (L2 ℚ ℚ) :=
  ((quadRom b).fitAll (l2Solver corSvd) false false false false [squareTraj]).1

-- all hypotheses of `C131_bases`, and so those of the other theorems, hold for two bases of different signs
example : (quadFit minusB).predict (.vec [3]) 3 .none = .ok (.mat 3 [[3, 9, 81]]) := by
  refine C131_bases corSvd corSvd_spec (quadRom plusB) (quadRom minusB) (quadFit plusB) (quadFit minusB) rfl
    quadL2_inv quadL2_inv rfl rfl rfl (by decide +kernel) 1 0 1 (by decide) 1 (by decide) ?_ ?_ [[-1]]
    sign_inverts (fun _ => ⟨_, _, flip_perm⟩) plusB minusB rfl rfl sign_rotated false [squareTraj] ?_ (fun h => by cases h)
    (Prod.ext rfl (by decide +kernel))
    (Prod.ext rfl (by decide +kernel)) (.vec [3]) ?_ 3 .none (fun a h => by cases h) (.mat 3 [[3, 9, 81]])
    (by decide +kernel)
  · intro s hs
    cases hs
    rfl
  · intro s hs
    cases hs
    rfl
  · intro x hx L X h1 h2
    obtain rfl := mem_singleton.1 hx
    cases h2; cases h1
    exact (show ∀ row ∈ [[(1 : ℚ), 2]], row.length = 2 by decide +kernel)
  · intro L X h1 h2
    cases h2; cases h1
    trivial

example : (quadFit plusB).model.ops.map Op.entries = [some ⟨1, 1, [[1]]⟩] ∧
    (quadFit minusB).model.ops.map Op.entries = [some ⟨1, 1, [[-1]]⟩] := by
  constructor <;> decide +kernel

/-- The same for one training of the model: the states `1 ↦ 1`, and the same with the other sign. -/
def flipT (q z : ℚ) : Training ℚ (L2 ℚ ℚ) where
  before := quadL2
  states := .mat 1 [[q]]
  lhs := .mat 1 [[z]]
  inputs := none
  after := (quadL2.fit (l2Solver corSvd) (.mat 1 [[q]]) (.mat 1 [[z]]) none).1

example : (flipT (-1) (-1)).after.predict [-1] 3 .none = .ok [[-1], [-1 / 2], [-1 / 8]] := by
  have := C131_predict corSvd corSvd_spec (flipT 1 1) (flipT (-1) (-1)) 1 0 1
    ⟨quadL2_inv, rfl, by unfold Arg.WF; decide +kernel, by unfold Arg.WF; decide +kernel, (fun a h => by cases h), rfl,
      by omega, (fun a h => by cases h), Prod.ext rfl (by
        change (quadL2.fit (l2Solver corSvd) (.mat 1 [[1]]) (.mat 1 [[1]]) none).2 = _
        decide +kernel)⟩
    ⟨quadL2_inv, rfl, by unfold Arg.WF; decide +kernel, by unfold Arg.WF; decide +kernel, (fun a h => by cases h), rfl,
      by omega, (fun a h => by cases h), Prod.ext rfl (by
        change (quadL2.fit (l2Solver corSvd) (.mat 1 [[-1]]) (.mat 1 [[-1]]) none).2 = _
        decide +kernel)⟩
    (fun s hs => by cases hs; rfl) (fun s hs => by cases hs; rfl) [[-1]] ⟨flip_perm.iso, fun _ => ⟨_, _, flip_perm⟩⟩
    ⟨rfl, by
      simp [Training.samples, argSamples, flipT, atleast2d, inputAt, range_succ, affineMap, vadd, matVec, dot], fun q u hq _ =>
      C128_nothing_known _ _ (by decide +kernel) (by decide +kernel) _ (by constructor <;> simp) _ rfl q u hq⟩
    (.inl (by decide)) [1] 3 .none (fun a h => by cases h) [[1], [1 / 2], [1 / 8]] (by decide +kernel)
  refine Eq.trans ?_ (this.trans ?_)
  · rw [show affineMap [[-1]] (replicate 1 0) [(1 : ℚ)] = [-1] by decide +kernel]
  · decide +kernel

end Opinf
