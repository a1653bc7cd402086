import Verif.Props.Repeated

/-!
# C132: repeated training data with a regularization matrix
-/

namespace Opinf

open List

variable {K : Type} [Field K] [LinearOrder K] [IsStrictOrderedRing K]

omit [LinearOrder K] [IsStrictOrderedRing K] in
theorem sum_pairing_scale {n : Nat} (B B' : List K → List K → K) (c : K)
    (hB : ∀ a b : List K, a.length = n → b.length = n → B' a b = c * B a b) :
    ∀ O H : List (List K), (∀ a ∈ O, a.length = n) → (∀ a ∈ H, a.length = n) →
      (zipWith B' O H).sum = c * (zipWith B O H).sum := by
  intro O
  induction O with
  | nil => intro H _ _; simp
  | cons a O ih =>
    intro H hO hH
    cases H with
    | nil => simp
    | cons b H =>
      rw [zipWith_cons_cons, zipWith_cons_cons, sum_cons, sum_cons, hB a b (hO a mem_cons_self) (hH b mem_cons_self),
        ih H (fun x hx => hO x (mem_cons_of_mem _ hx)) (fun x hx => hH x (mem_cons_of_mem _ hx))]
      ring

theorem repeated_pairing {S S' : Type} {r m k : Nat} (hk : 0 < k) {t : Training K S} {t' : Training K S'} (hc : Repeats k t t')
    {B B' : List K → List K → K} (hB : ∀ a b : List K, a.length = t.width r m → b.length = t.width r m → B' a b = k * B a b)
    {O O' : Mat K} (h : t.Fitted r m B O) (h' : t'.Fitted r m B' O') :
    SameTrained r m t t' ((∀ v : List K, v.length = t.width r m → B v v = 0 → ∀ y ∈ v, y = 0) ∨ t.Decided r m) := by
  obtain ⟨c1, c2⟩ := hc
  have hinf : t'.before.toInfer = t.before.toInfer := by rw [Model.toInfer, Model.toInfer, c1]
  have hops : t'.before.ops = t.before.ops := by rw [Model.ops, Model.ops, c1]
  have hkn : ∀ q u, t'.before.knownPart.value q u = t.before.knownPart.value q u := fun q u => by
    have e : t'.before.knownPart.ops = t.before.knownPart.ops := by
      rw [Model.ops, Model.ops, Model.knownPart, Model.knownPart, c1]
    simp only [Model.value, Model.rhs, e]
  have hw : t'.width r m = t.width r m := by rw [Training.width, hinf]; rfl
  have hf : ∀ q u, t'.features q u = t.features q u := fun q u => by rw [Training.features, hinf]; rfl
  have mO : IsMat r (t.width r m) O.rows :=
    ⟨by rw [h.has.wf.1, h.has.nrows], fun a ha => by rw [h.has.wf.2 a ha, h.has.ncols]⟩
  have hmem : ∀ x ∈ t.samples, x ∈ t'.samples := by
    intro x hx
    refine c2.mem_iff.2 (mem_flatten.2 ⟨t.samples, ?_, hx⟩)
    exact mem_replicate.2 ⟨by omega, rfl⟩
  obtain ⟨d1, d2⟩ := C116_determined h' O h.has.wf h.has.nrows (by rw [hw]; exact h.has.ncols) (fun H hH g1 g2 => by
    rw [hw] at g2
    have mH : IsMat r (t.width r m) H.rows := ⟨by rw [hH.1, g1], fun a ha => by rw [hH.2 a ha, g2]⟩
    have key := h.orthogonal H hH g1 g2
    rw [sum_pairing_scale _ _ _ hB O.rows H.rows mO.2 mH.2, (c2.map _).sum_eq, sum_repeated, ← key]
    refine congrArg _ (congrArg List.sum (map_congr_left fun x hx => ?_))
    rw [hf, hkn, Training.gap, (h.has.value hx).2.1])
  have out : ∀ q u, q.length = r → (∀ o ∈ t.before.ops, InputOK o.kind m u) →
      matVec O.rows (t.features q u) = matVec O'.rows (t.features q u) → t'.after.rhs q u = t.after.rhs q u := by
    intro q u hq hu e
    rw [(h.has.output q u hq hu).1, (h'.has.output q u hq (by rw [hops]; exact hu)).1, hf, hkn, e]
  have eq : (∀ v : List K, v.length = t.width r m → B v v = 0 → ∀ y ∈ v, y = 0) ∨ t.Decided r m → O = O' := by
    intro hd
    refine d2 ?_
    rcases hd with hd | hd
    · refine .inl fun v hv h0 => hd v (hw ▸ hv) ?_
      rw [hB v v (hw ▸ hv) (hw ▸ hv)] at h0
      exact (mul_eq_zero.1 h0).resolve_left (Nat.cast_ne_zero.2 (by omega))
    · refine .inr fun v hv hx => hd v (by rw [hv, hinf]) fun x hxs => ?_
      have := hx x (hmem x hxs)
      rw [hinf] at this
      exact this
  refine ⟨fun x hx => ?_, fun hd => ?_, fun hd q u hq hu => out q u hq hu (by rw [eq hd])⟩
  · obtain ⟨a1, -, a3⟩ := h.has.samples x hx
    refine out x.q x.u a1 a3 ?_
    have := d1 x (hmem x hx)
    rw [hf] at this
    exact this
  · rw [h'.has.opMatrix, h.has.opMatrix, eq hd]

/-! ### Property theorems -/

/-- **C132** (`TikhonovSolver`). Training with every snapshot `k` times, in any order, and the regularization matrix `G'` is
training with every snapshot once and `G`, if `G'ᵀ G' = k Gᵀ G`: the two models agree at all samples, and they have the same
operators if `G` is injective or the data determine the operators. -/
theorem C132_tikhonov (lstsq posSolve lstsq' posSolve' : Mat K → Mat K → Except Err (Mat K))
    (hls : ∀ A B X, lstsq A B = .ok X → IsLstsq A B X)
    (hps : ∀ A B X, A.nrows = B.nrows → A.nrows = A.ncols → posSolve A B = .ok X → IsSolution A B X)
    (hls' : ∀ A B X, lstsq' A B = .ok X → IsLstsq A B X)
    (hps' : ∀ A B X, A.nrows = B.nrows → A.nrows = A.ncols → posSolve' A B = .ok X → IsSolution A B X)
    (t t' : Training K (Tik (Mat K) K)) (r m k : Nat) (hk : 0 < k) (G G' : Mat K) (hG : G.WF) (hG' : G'.WF)
    (hGG : ∀ a b : List K, a.length = t.width r m → b.length = t.width r m →
      dot (matVec G'.rows a) (matVec G'.rows b) = k * dot (matVec G.rows a) (matVec G.rows b))
    (h : t.Done (tikSolver lstsq posSolve) r m) (h' : t'.Done (tikSolver lstsq' posSolve') r m)
    (hreg : ∀ s ∈ t.before.solver, s.reg = some G) (hreg' : ∀ s ∈ t'.before.solver, s.reg = some G') (hc : Repeats k t t') :
    SameTrained r m t t'
      ((∀ v : List K, v.length = t.width r m → (∀ y ∈ matVec G.rows v, y = 0) → ∀ y ∈ v, y = 0) ∨ t.Decided r m) := by
  obtain ⟨O, hO⟩ := C116_tikhonov lstsq posSolve hls hps t r m h G hG hreg
  obtain ⟨O', hO'⟩ := C116_tikhonov lstsq' posSolve' hls' hps' t' r m h' G' hG' hreg'
  have key := repeated_pairing hk hc hGG hO hO'
  have e : (∀ v : List K, v.length = t.width r m → (∀ y ∈ matVec G.rows v, y = 0) → ∀ y ∈ v, y = 0) ∨ t.Decided r m →
      (∀ v : List K, v.length = t.width r m → dot (matVec G.rows v) (matVec G.rows v) = 0 → ∀ y ∈ v, y = 0) ∨ t.Decided r m :=
    fun hd => hd.imp_left fun hd v hv h0 => hd v hv (by
      rw [← sumSq_eq_dot] at h0
      rw [sumSq_eq_zero _ h0]
      exact fun y hy => (mem_replicate.1 hy).2)
  exact ⟨key.onSamples, fun hd => key.matrix (e hd), fun hd => key.everywhere (e hd)⟩

/-- **C132** (`L2Solver` and `TikhonovSolver`). The same with `L2Solver` for the single snapshots and `TikhonovSolver` for the
repeated ones, if `Gᵀ G = k λ²`. In particular (`k = 1`) both solvers with `G = λ I` train the same model. -/
theorem C132_l2_tikhonov (svd : Mat K → Except Err (Svd K)) (hsvd : ∀ D u, svd D = .ok u → IsSVD D u)
    (lstsq posSolve : Mat K → Mat K → Except Err (Mat K)) (hls : ∀ A B X, lstsq A B = .ok X → IsLstsq A B X)
    (hps : ∀ A B X, A.nrows = B.nrows → A.nrows = A.ncols → posSolve A B = .ok X → IsSolution A B X)
    (t : Training K (L2 K K)) (t' : Training K (Tik (Mat K) K)) (r m k : Nat) (hk : 0 < k) (lam : K) (G : Mat K) (hG : G.WF)
    (hGl : ∀ a b : List K, a.length = t.width r m → b.length = t.width r m →
      dot (matVec G.rows a) (matVec G.rows b) = k * (lam ^ 2 * dot a b))
    (h : t.Done (l2Solver svd) r m) (h' : t'.Done (tikSolver lstsq posSolve) r m)
    (hreg : ∀ s ∈ t.before.solver, s.reg = some lam) (hreg' : ∀ s ∈ t'.before.solver, s.reg = some G) (hc : Repeats k t t') :
    SameTrained r m t t' (lam ≠ 0 ∨ t.Decided r m) := by
  obtain ⟨O, hO⟩ := C116_l2 svd hsvd t r m lam h hreg
  obtain ⟨O', hO'⟩ := C116_tikhonov lstsq posSolve hls hps t' r m h' G hG hreg'
  have key := repeated_pairing hk hc hGl hO hO'
  have e : lam ≠ 0 ∨ t.Decided r m →
      (∀ v : List K, v.length = t.width r m → lam ^ 2 * dot v v = 0 → ∀ y ∈ v, y = 0) ∨ t.Decided r m :=
    fun hd => hd.imp_left fun hd v _ h0 => by
      have := (mul_eq_zero.1 h0).resolve_left (pow_ne_zero 2 hd)
      rw [← sumSq_eq_dot] at this
      rw [sumSq_eq_zero _ this]
      exact fun y hy => (mem_replicate.1 hy).2
  exact ⟨key.onSamples, fun hd => key.matrix (e hd), fun hd => key.everywhere (e hd)⟩

/-! ### Non-vacuity -/

/-- A solver for systems with one unknown and one right-hand side. -/
def onePs (A B : Mat ℚ) : Except Err (Mat ℚ) :=
  match A, B with
  | ⟨1, 1, [[a]]⟩, ⟨1, 1, [[b]]⟩ => if a = 0 then .error .linalg else .ok ⟨1, 1, [[b / a]]⟩
  | _, _ => .error .linalg

theorem onePs_spec (A B X : Mat ℚ) (h : onePs A B = .ok X) : IsSolution A B X := by
  unfold onePs at h
  split at h
  · rename_i a b
    split at h
    · cases h
    · rename_i ha
      injection h with h
      subst h
      refine ⟨⟨rfl, by simp⟩, rfl, rfl, fun j hj => ?_⟩
      obtain rfl : j = 0 := by simp at hj; exact hj
      simp [matVec, col, dot]
      field_simp
  · cases h

/-- A linear model with a `TikhonovSolver` with regularization matrix `[[g]]`, and the training with one snapshot `n` times. -/
def repTik (g : ℚ) : Model ℚ (Tik (Mat ℚ) ℚ) :=
  ⟨[⟨⟨.lin, none⟩, true⟩], false, none, some 0, false, some ⟨some ⟨1, 1, [[g]]⟩, .normal, none, none⟩⟩

def repTikT (g : ℚ) (n : Nat) : Training ℚ (Tik (Mat ℚ) ℚ) where
  before := repTik g
  states := .mat 1 (replicate n [1])
  lhs := .mat 1 (replicate n [3])
  inputs := none
  after := ((repTik g).fit (tikSolver (fun _ _ => .error .linalg) onePs) (.mat 1 (replicate n [1])) (.mat 1 (replicate n [3]))
    none).1

theorem repTik_done (g : ℚ) (n : Nat)
    (h : ((repTik g).fit (tikSolver (fun _ _ => .error .linalg) onePs) (.mat 1 (replicate n [1])) (.mat 1 (replicate n [3]))
      none).2 = .ok ()) : (repTikT g n).Done (tikSolver (fun _ _ => .error .linalg) onePs) 1 0 := by
  refine ⟨?_, rfl, (show ∀ x ∈ replicate n [(1 : ℚ)], x.length = 1 by simp),
    (show ∀ x ∈ replicate n [(3 : ℚ)], x.length = 1 by simp),
    (fun a h => by cases h), rfl, by omega, (fun a h => by cases h), Prod.ext rfl h⟩
  refine ⟨?_, rfl, ?_, fun _ => rfl, fun _ => ⟨⟨⟨.lin, none⟩, true⟩, by simp [repTikT, repTik], rfl⟩⟩
  · intro s hs E hE
    simp only [repTikT, repTik, mem_cons, not_mem_nil, or_false] at hs
    subst hs
    cases hE
  · intro s hs
    simp only [repTikT, repTik, mem_cons, not_mem_nil, or_false] at hs
    subst hs
    simp

-- all hypotheses of `C132_tikhonov` hold: one snapshot with `G = [[1]]`, and four times the snapshot with `G' = [[2]]`
example : (repTikT 2 4).after.operatorMatrix = (repTikT 1 1).after.operatorMatrix := by
  refine (C132_tikhonov (fun _ _ => .error .linalg) onePs (fun _ _ => .error .linalg) onePs (fun _ _ _ h => by cases h)
    (fun A B X _ _ h => onePs_spec A B X h) (fun _ _ _ h => by cases h) (fun A B X _ _ h => onePs_spec A B X h) (repTikT 1 1)
    (repTikT 2 4) 1 0 4 (by decide) ⟨1, 1, [[1]]⟩ ⟨1, 1, [[2]]⟩ (by decide) (by decide) ?_ (repTik_done _ _ (by decide +kernel))
    (repTik_done _ _ (by decide +kernel)) (fun s hs => by cases hs; rfl) (fun s hs => by cases hs; rfl) ⟨rfl, ?_⟩).matrix (.inl ?_)
  · intro a b ha hb
    match a, b, ha, hb with
    | [a], [b], _, _ =>
      simp [matVec, dot]
      ring
  · simp [Training.samples, argSamples, repTikT, atleast2d, inputAt, range_succ, replicate]
  · intro v hv
    match v, hv with
    | [v], _ => simp [matVec, dot]

example : (repTikT 1 1).after.operatorMatrix = .ok ⟨1, 1, [[3 / 2]]⟩ := by decide +kernel

-- all hypotheses of `C132_l2_tikhonov` hold: one snapshot with `λ = 1`, and four times the snapshot with `G = [[2]]`
example : (repTikT 2 4).after.operatorMatrix = (repT corSvd 1 1).after.operatorMatrix := by
  refine (C132_l2_tikhonov corSvd corSvd_spec (fun _ _ => .error .linalg) onePs (fun _ _ _ h => by cases h)
    (fun A B X _ _ h => onePs_spec A B X h) (repT corSvd 1 1) (repTikT 2 4) 1 0 4 (by decide) 1 ⟨1, 1, [[2]]⟩ (by decide) ?_
    (repT_done _ _ _ (by decide +kernel)) (repTik_done _ _ (by decide +kernel)) (fun s hs => by cases hs; rfl)
    (fun s hs => by cases hs; rfl) ⟨rfl, ?_⟩).matrix (.inl (by norm_num))
  · intro a b ha hb
    match a, b, ha, hb with
    | [a], [b], _, _ =>
      simp [matVec, dot]
      ring
  · simp [Training.samples, argSamples, repTikT, repT, atleast2d, inputAt, range_succ, replicate]

end Opinf
