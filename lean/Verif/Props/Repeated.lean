import Verif.Props.OrthogonalCoordinates

/-!
# C132: repeated training data
-/

namespace Opinf

open List

variable {K : Type} [Field K] [LinearOrder K] [IsStrictOrderedRing K]

/-- The second training has the same operators before training, and every sample of the first one `k` times. -/
structure Repeats {S S' : Type} (k : Nat) (t : Training K S) (t' : Training K S') : Prop where
  slots : t'.before.slots = t.before.slots
  samples : t'.samples.Perm (replicate k t.samples).flatten

/-- The trained models agree on all samples; if the result is unique, they have the same operator matrix and agree for all
states and inputs. -/
structure SameTrained {S S' : Type} (r m : Nat) (t : Training K S) (t' : Training K S') (decisive : Prop) : Prop where
  onSamples : ∀ x ∈ t.samples, t'.after.rhs x.q x.u = t.after.rhs x.q x.u
  matrix : decisive → t'.after.operatorMatrix = t.after.operatorMatrix
  everywhere : decisive → ∀ q u, q.length = r → (∀ o ∈ t.before.ops, InputOK o.kind m u) →
    t'.after.rhs q u = t.after.rhs q u

omit [LinearOrder K] [IsStrictOrderedRing K] in
theorem sum_repeated {α : Type} (f : α → K) (l : List α) (k : Nat) :
    ((replicate k l).flatten.map f).sum = k * (l.map f).sum := by
  induction k with
  | zero => simp
  | succ k ih =>
    rw [replicate_succ, flatten_cons, map_append, sum_append, ih]
    push_cast
    ring

theorem repeated_core {S S' : Type} {r m k : Nat} (hk : 0 < k) {t : Training K S} {t' : Training K S'} (hc : Repeats k t t')
    {c : K} {O O' : Mat K} (h : t.Fitted r m (fun a b => c * dot a b) O)
    (h' : t'.Fitted r m (fun a b => k * c * dot a b) O') : SameTrained r m t t' (c ≠ 0 ∨ t.Decided r m) := by
  obtain ⟨c1, c2⟩ := hc
  have hinf : t'.before.toInfer = t.before.toInfer := by rw [Model.toInfer, Model.toInfer, c1]
  have hops : t'.before.ops = t.before.ops := by rw [Model.ops, Model.ops, c1]
  have hkn : ∀ q u, t'.before.knownPart.value q u = t.before.knownPart.value q u := fun q u => by
    have e : t'.before.knownPart.ops = t.before.knownPart.ops := by
      rw [Model.ops, Model.ops, Model.knownPart, Model.knownPart, c1]
    simp only [Model.value, Model.rhs, e]
  have hw : t'.width r m = t.width r m := by rw [Training.width, hinf]; rfl
  have hf : ∀ q u, t'.features q u = t.features q u := fun q u => by rw [Training.features, hinf]; rfl
  have mO : IsMat r (t.width r m) O.rows :=
    ⟨by rw [h.has.wf.1, h.has.nrows], fun a ha => by rw [h.has.wf.2 a ha, h.has.ncols]⟩
  have hmem : ∀ x ∈ t.samples, x ∈ t'.samples := by
    intro x hx
    refine c2.mem_iff.2 (mem_flatten.2 ⟨t.samples, ?_, hx⟩)
    exact mem_replicate.2 ⟨by omega, rfl⟩
  obtain ⟨d1, d2⟩ := C116_determined h' O h.has.wf h.has.nrows (by rw [hw]; exact h.has.ncols) (fun H hH g1 g2 => by
    rw [hw] at g2
    have mH : IsMat r (t.width r m) H.rows := ⟨by rw [hH.1, g1], fun a ha => by rw [hH.2 a ha, g2]⟩
    have key := h.orthogonal H hH g1 g2
    rw [frob_scale mO mH] at key
    rw [frob_scale mO mH, (c2.map _).sum_eq, sum_repeated, mul_assoc, ← key]
    refine congrArg _ (congrArg List.sum (map_congr_left fun x hx => ?_))
    rw [hf, hkn, Training.gap, (h.has.value hx).2.1])
  have out : ∀ q u, q.length = r → (∀ o ∈ t.before.ops, InputOK o.kind m u) →
      matVec O.rows (t.features q u) = matVec O'.rows (t.features q u) → t'.after.rhs q u = t.after.rhs q u := by
    intro q u hq hu e
    rw [(h.has.output q u hq hu).1, (h'.has.output q u hq (by rw [hops]; exact hu)).1, hf, hkn, e]
  have eq : c ≠ 0 ∨ t.Decided r m → O = O' := by
    intro hd
    refine d2 ?_
    rcases hd with hd | hd
    · refine .inl fun v _ hv y hy => ?_
      have hne : (k : K) * c ≠ 0 := mul_ne_zero (Nat.cast_ne_zero.2 (by omega)) hd
      rw [mul_eq_zero, or_iff_right hne, ← sumSq_eq_dot] at hv
      have := sumSq_eq_zero v hv
      rw [this] at hy
      exact eq_of_mem_replicate hy
    · refine .inr fun v hv hx => hd v (by rw [hv, hinf]) fun x hxs => ?_
      have := hx x (hmem x hxs)
      rw [hinf] at this
      exact this
  refine ⟨fun x hx => ?_, fun hd => ?_, fun hd q u hq hu => out q u hq hu (by rw [eq hd])⟩
  · obtain ⟨a1, -, a3⟩ := h.has.samples x hx
    refine out x.q x.u a1 a3 ?_
    have := d1 x (hmem x hx)
    rw [hf] at this
    exact this
  · rw [h'.has.opMatrix, h.has.opMatrix, eq hd]

/-! ### Property theorems -/

/-- **C132** (`L2Solver`). Training with every snapshot `k` times is training with every snapshot once and a regularizer that
is smaller by the factor `√k`: the two models agree at all samples, and they have the same operators if the regularizer is not
zero or the data determine the operators. -/
theorem C132_l2 (svd svd' : Mat K → Except Err (Svd K)) (hsvd : ∀ D u, svd D = .ok u → IsSVD D u)
    (hsvd' : ∀ D u, svd' D = .ok u → IsSVD D u) (t t' : Training K (L2 K K)) (r m k : Nat) (hk : 0 < k) (lam lam' : K)
    (hl : lam' ^ 2 = k * lam ^ 2) (h : t.Done (l2Solver svd) r m) (h' : t'.Done (l2Solver svd') r m)
    (hlam : ∀ s ∈ t.before.solver, s.reg = some lam) (hlam' : ∀ s ∈ t'.before.solver, s.reg = some lam')
    (hc : Repeats k t t') : SameTrained r m t t' (lam ≠ 0 ∨ t.Decided r m) := by
  obtain ⟨O, hO⟩ := C116_l2 svd hsvd t r m lam h hlam
  obtain ⟨O', hO'⟩ := C116_l2 svd' hsvd' t' r m lam' h' hlam'
  rw [hl] at hO'
  have := repeated_core hk hc hO hO'
  have e : lam ≠ 0 ∨ t.Decided r m → lam ^ 2 ≠ 0 ∨ t.Decided r m := fun hd => hd.imp (pow_ne_zero 2) id
  exact ⟨this.onSamples, fun hd => this.matrix (e hd), fun hd => this.everywhere (e hd)⟩

/-- **C132** (`PlainSolver`). Without regularization it does not matter how often the data are given. -/
theorem C132_plain (lstsq lstsq' : Mat K → Mat K → Except Err (Mat K)) (hls : ∀ A B X, lstsq A B = .ok X → IsLstsq A B X)
    (hls' : ∀ A B X, lstsq' A B = .ok X → IsLstsq A B X) (t t' : Training K (Plain K)) (r m k : Nat) (hk : 0 < k)
    (h : t.Done (plainSolver lstsq) r m) (h' : t'.Done (plainSolver lstsq') r m)
    (hc : Repeats k t t') : SameTrained r m t t' (t.Decided r m) := by
  obtain ⟨O, hO⟩ := C116_plain lstsq hls t r m h
  obtain ⟨O', hO'⟩ := C116_plain lstsq' hls' t' r m h'
  have e : ∀ c : K, (fun _ _ : List K => (0 : K)) = fun a b => c * 0 * dot a b := fun c => by funext a b; ring
  have e1 : (fun _ _ : List K => (0 : K)) = fun a b => 0 * dot a b := by funext a b; ring
  rw [e1] at hO
  rw [e k] at hO'
  have := repeated_core hk hc hO hO'
  exact ⟨this.onSamples, fun hd => this.matrix (.inr hd), fun hd => this.everywhere (.inr hd)⟩

/-! ### Non-vacuity -/

/-- A singular value decomposition of four equal rows. -/
def repSvd (D : Mat ℚ) : Except Err (Svd ℚ) :=
  if D = ⟨4, 1, [[1], [1], [1], [1]]⟩ then .ok ⟨⟨4, 1, [[1 / 2], [1 / 2], [1 / 2], [1 / 2]]⟩, [2], ⟨1, 1, [[1]]⟩⟩
  else .error .linalg

theorem repSvd_spec (D : Mat ℚ) (u : Svd ℚ) (h : repSvd D = .ok u) : IsSVD D u := by
  unfold repSvd at h
  split at h
  · rename_i hD
    injection h with h
    subst h
    subst hD
    refine ⟨⟨rfl, by simp⟩, ⟨rfl, by simp⟩, rfl, rfl, rfl, rfl, fun x hx => ?_, fun v w hv hw => ?_, fun v hv => ?_⟩
    · match x, hx with
      | [x], _ =>
        simp [matVec, dot]
        try ring
    · match v, w, hv, hw with
      | [v], [w], _, _ =>
        simp [matVec, dot]
        try ring
    · match v, hv with
      | [v], _ => simp [matVec, dot, vecMat, vadd, vsmul]
  · cases h

/-- A linear model with an `L2Solver` with regularizer `lam`, and the training with one snapshot `n` times. -/
def repModel (lam : ℚ) : Model ℚ (L2 ℚ ℚ) := ⟨[⟨⟨.lin, none⟩, true⟩], false, none, some 0, false, some ⟨some lam, none, none⟩⟩

def repT (svd : Mat ℚ → Except Err (Svd ℚ)) (lam : ℚ) (n : Nat) : Training ℚ (L2 ℚ ℚ) where
  before := repModel lam
  states := .mat 1 (replicate n [1])
  lhs := .mat 1 (replicate n [3])
  inputs := none
  after := ((repModel lam).fit (l2Solver svd) (.mat 1 (replicate n [1])) (.mat 1 (replicate n [3])) none).1

theorem repModel_inv (lam : ℚ) : (repModel lam).Inv := by
  refine ⟨?_, rfl, ?_, fun _ => rfl, fun _ => ⟨⟨⟨.lin, none⟩, true⟩, by simp [repModel], rfl⟩⟩
  · intro s hs E hE
    simp only [repModel, mem_cons, not_mem_nil, or_false] at hs
    subst hs
    cases hE
  · intro s hs
    simp only [repModel, mem_cons, not_mem_nil, or_false] at hs
    subst hs
    simp

theorem repT_done (svd : Mat ℚ → Except Err (Svd ℚ)) (lam : ℚ) (n : Nat)
    (h : ((repModel lam).fit (l2Solver svd) (.mat 1 (replicate n [1])) (.mat 1 (replicate n [3])) none).2 = .ok ()) :
    (repT svd lam n).Done (l2Solver svd) 1 0 :=
  ⟨repModel_inv lam, rfl, (show ∀ x ∈ replicate n [(1 : ℚ)], x.length = 1 by simp), (show ∀ x ∈ replicate n [(3 : ℚ)], x.length = 1 by simp),
    (fun a h => by cases h), rfl, by omega, (fun a h => by cases h), Prod.ext rfl h⟩

theorem rep_repeats : Repeats 4 (repT corSvd 1 1) (repT repSvd 2 4) := by
  refine ⟨rfl, ?_⟩
  simp [Training.samples, argSamples, repT, atleast2d, inputAt, range_succ, replicate]

-- all hypotheses of `C132_l2` hold: one snapshot with regularizer 1, and four times the snapshot with regularizer 2
example : (repT repSvd 2 4).after.operatorMatrix = (repT corSvd 1 1).after.operatorMatrix :=
  (C132_l2 corSvd repSvd corSvd_spec repSvd_spec (repT corSvd 1 1) (repT repSvd 2 4) 1 0 4 (by decide) 1 2 (by norm_num)
    (repT_done _ _ _ (by decide +kernel)) (repT_done _ _ _ (by decide +kernel)) (fun s hs => by cases hs; rfl)
    (fun s hs => by cases hs; rfl) rep_repeats).matrix (.inl (by norm_num))

example : (repT corSvd 1 1).after.operatorMatrix = .ok ⟨1, 1, [[3 / 2]]⟩ := by decide +kernel

end Opinf
