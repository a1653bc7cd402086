import Verif.Props.ParamResiduals
import Verif.Props.RepeatedTikhonov
import Verif.Props.Superpose

/-!
# C132 for parametric models

Specification: the samples of all training parameters of the second training are those of the first, each `k` times.
-/

namespace Opinf

open List

variable {K S S' : Type} [Field K] [LinearOrder K] [IsStrictOrderedRing K]

/-- The second model has the same operators before training, and is trained with every sample `((mu, q, u), z)` of the first one
`k` times, in any order and distribution over training sets. -/
structure ParamRepeats (k : Nat) (M : PModel K S) (N : PModel K S') (T T' : List (ParamData K)) : Prop where
  slots : N.slots = M.slots
  samples : (N.pointsOf T').Perm (replicate k (M.pointsOf T)).flatten

omit [LinearOrder K] [IsStrictOrderedRing K] in
theorem gap_difference : ∀ (z a b w : List K), a.length = b.length → a.length ≤ z.length → a.length ≤ w.length →
    dot (vsub z (vadd a w)) (lin2 1 a (-1) b) = dot (vsub z (vadd b w)) (lin2 1 a (-1) b) -
      dot (lin2 1 a (-1) b) (lin2 1 a (-1) b) := by
  intro z a
  induction a generalizing z with
  | nil => intro b w hb _ _; cases b <;> simp_all [lin2, vadd, vsmul, dot, vsub]
  | cons x a ih =>
    intro b w hb hz hw
    match b, z, w, hb, hz, hw with
    | y :: b, v :: z, u :: w, hb, hz, hw =>
      have := ih z b w (by simpa using hb) (by simpa using hz) (by simpa using hw)
      simp only [lin2, vadd, vsmul, dot, vsub, zipWith_cons_cons, map_cons, sum_cons] at this ⊢
      linear_combination this

omit [IsStrictOrderedRing K] in
theorem pairing_difference {n : Nat} {B : List K → List K → K} (hB : Pairing n B) : ∀ O P : List (List K),
    O.length = P.length → (∀ a ∈ O, a.length = n) → (∀ a ∈ P, a.length = n) →
    (zipWith B O (zipWith (fun a b => lin2 1 a (-1) b) O P)).sum =
      (zipWith B P (zipWith (fun a b => lin2 1 a (-1) b) O P)).sum +
        ((zipWith (fun a b => lin2 1 a (-1) b) O P).map fun h => B h h).sum := by
  intro O
  induction O with
  | nil => intro P hl _ _; cases P <;> simp_all
  | cons a O ih =>
    intro P hl hO hP
    match P, hl with
    | b :: P, hl =>
      have := ih P (by simpa using hl) (fun x hx => hO x (mem_cons_of_mem _ hx)) (fun x hx => hP x (mem_cons_of_mem _ hx))
      have ha := hO a mem_cons_self
      have hb := hP b mem_cons_self
      have hh : (lin2 1 a (-1) b).length = n := by simp [lin2, vadd, vsmul, ha, hb]
      have e := hB.linear a b (lin2 1 a (-1) b) 1 (-1) ha hb hh
      rw [← lin2] at e
      simp only [zipWith_cons_cons, map_cons, sum_cons] at this ⊢
      linear_combination this - e

theorem param_repeated_core {lib : ItpLib K} {M M' : PModel K S} {N N' : PModel K S'} {T T' : List (ParamData K)} {r m k : Nat}
    (hk : 0 < k) {B B' : List K → List K → K} (hP : ∀ n, Pairing n B)
    (hB : ∀ a b : List K, a.length = M.learnWidth T.length r m → b.length = M.learnWidth T.length r m → B' a b = k * B a b)
    {O O' : Mat K} {y y' : Par K × List K × Option (List K) → List K} (h : ParamFitted lib M M' T r m B O y)
    (h' : ParamFitted lib N N' T' r m B' O' y') (hc : ParamRepeats k M N T T') :
    ∀ x ∈ M.pointsOf T, (N'.rhs lib x.1.1 x.1.2.1 x.1.2.2).2 = (M'.rhs lib x.1.1 x.1.2.1 x.1.2.2).2 ∧
      O'.nrows = O.nrows ∧ O'.ncols = O.ncols ∧ O.rows.length = O'.rows.length ∧ (∀ a ∈ O.rows, a.length = O.ncols) ∧
      (∀ a ∈ O'.rows, a.length = O.ncols) ∧ ((zipWith (fun a b => lin2 1 a (-1) b) O.rows O'.rows).map fun h => B h h).sum = 0 ∧
      matVec O.rows (M.learnVector x.1) = matVec O'.rows (M.learnVector x.1) := by
  intro x0 hx0
  have hmem : ∀ x ∈ M.pointsOf T, x ∈ N.pointsOf T' := fun x hx =>
    hc.samples.mem_iff.2 (mem_flatten.2 ⟨M.pointsOf T, mem_replicate.2 ⟨by omega, rfl⟩, hx⟩)
  have hlv : ∀ x, N.learnVector x = M.learnVector x := fun x => by
    simp only [PModel.learnVector, PModel.toInfer, hc.slots]
  have hkn : ∀ x, N.knownAt lib r x = M.knownAt lib r x := fun x => by
    simp only [PModel.knownAt, PModel.known, hc.slots]
  obtain ⟨n, hn⟩ : ∃ n, n = M.learnWidth T.length r m := ⟨_, rfl⟩
  have hn' : N.learnWidth T'.length r m = n := by
    rw [hn, ← (h.lengths x0 hx0).2.2, ← (h'.lengths x0 (hmem x0 hx0)).2.2, hlv]
  have lO : O.rows.length = r := by rw [h.wf.1, h.nrows]
  have lO' : O'.rows.length = r := by rw [h'.wf.1, h'.nrows]
  have rO : ∀ a ∈ O.rows, a.length = n := fun a ha => by rw [h.wf.2 a ha, h.ncols, hn]
  have rO' : ∀ a ∈ O'.rows, a.length = n := fun a ha => by rw [h'.wf.2 a ha, h'.ncols, hn']
  obtain ⟨H, hH⟩ : ∃ H : List (List K), H = zipWith (fun a b => lin2 1 a (-1) b) O.rows O'.rows := ⟨_, rfl⟩
  have lH : H.length = r := by rw [hH, length_zipWith, lO, lO', min_self]
  have rH : ∀ a ∈ H, a.length = n := by
    intro a ha
    rw [hH] at ha
    obtain ⟨i, hi, rfl⟩ := getElem_of_mem ha
    simp only [length_zipWith] at hi
    simp [lin2, vadd, vsmul, rO _ (getElem_mem (show i < O.rows.length by omega)),
      rO' _ (getElem_mem (show i < O'.rows.length by omega))]
  have hR : ∀ d, matVec H d = lin2 1 (matVec O.rows d) (-1) (matVec O'.rows d) := fun d => by
    rw [hH]; exact matVec_lin2 O.rows O'.rows 1 (-1) d rO rO'
  have k1 := h.orthogonal ⟨r, n, H⟩ ⟨lH, rH⟩ rfl hn
  have k2 := h'.orthogonal ⟨r, n, H⟩ ⟨lH, rH⟩ rfl hn'.symm
  rw [(hc.samples.map _).sum_eq, sum_repeated, sum_pairing_scale B B' k (hn ▸ hB) O'.rows H rO' rH] at k2
  have k2 := mul_left_cancel₀ (Nat.cast_ne_zero.2 (by omega : k ≠ 0)) k2
  have k3 := pairing_difference (hP n) O.rows O'.rows (lO.trans lO'.symm) rO rO'
  rw [← hH] at k3
  have k4 : ((M.pointsOf T).map fun x => dot (vsub x.2 (y x.1)) (matVec H (M.learnVector x.1))).sum =
      ((M.pointsOf T).map fun x => dot (vsub x.2 (y' x.1)) (matVec H (N.learnVector x.1))).sum -
        ((M.pointsOf T).map fun x => sumSq (matVec H (M.learnVector x.1))).sum := by
    have : ∀ l : List ((Par K × List K × Option (List K)) × List K), (∀ x ∈ l, x ∈ M.pointsOf T) →
        (l.map fun x => dot (vsub x.2 (y x.1)) (matVec H (M.learnVector x.1))).sum =
        (l.map fun x => dot (vsub x.2 (y' x.1)) (matVec H (N.learnVector x.1))).sum -
        (l.map fun x => sumSq (matVec H (M.learnVector x.1))).sum := by
      intro l
      induction l with
      | nil => simp
      | cons x l ih =>
        intro hl
        have hx := hl x mem_cons_self
        obtain ⟨g1, g2, -⟩ := h.lengths x hx
        have e := gap_difference x.2 (matVec O.rows (M.learnVector x.1)) (matVec O'.rows (M.learnVector x.1))
          (M.knownAt lib r x.1) (by rw [length_matVec, length_matVec, lO, lO']) (by
            rw [length_vsub] at g2
            rw [length_matVec, lO]
            omega) (by
            rw [h.value x hx, length_vadd] at g1
            rw [length_matVec, lO]
            omega)
        rw [← hR, ← h.value x hx] at e
        have e' := h'.value x (hmem x hx)
        rw [hlv, hkn] at e'
        rw [← e', ← sumSq_eq_dot] at e
        have := ih fun z hz => hl z (mem_cons_of_mem _ hz)
        simp only [map_cons, sum_cons]
        rw [this, e, hlv]
        ring
    exact this _ fun _ hx => hx
  have k5 : 0 ≤ (H.map fun h => B h h).sum := List.sum_nonneg fun z hz => by
    obtain ⟨v, -, rfl⟩ := mem_map.1 hz
    exact (hP n).nonneg _
  have k6 : ((M.pointsOf T).map fun x => sumSq (matVec H (M.learnVector x.1))).sum ≤ 0 := by
    have k1' : ((M.pointsOf T).map fun x => dot (vsub x.2 (y x.1)) (matVec H (M.learnVector x.1))).sum =
      (zipWith B O.rows H).sum := k1
    have k2' : ((M.pointsOf T).map fun x => dot (vsub x.2 (y' x.1)) (matVec H (N.learnVector x.1))).sum =
      (zipWith B O'.rows H).sum := k2
    linarith
  have k9 : (H.map fun h => B h h).sum ≤ 0 := by
    have k1' : ((M.pointsOf T).map fun x => dot (vsub x.2 (y x.1)) (matVec H (M.learnVector x.1))).sum =
      (zipWith B O.rows H).sum := k1
    have k2' : ((M.pointsOf T).map fun x => dot (vsub x.2 (y' x.1)) (matVec H (N.learnVector x.1))).sum =
      (zipWith B O'.rows H).sum := k2
    have : 0 ≤ ((M.pointsOf T).map fun x => sumSq (matVec H (M.learnVector x.1))).sum := List.sum_nonneg fun z hz => by
      obtain ⟨v, -, rfl⟩ := mem_map.1 hz
      exact sumSq_nonneg _
    linarith
  have k7 : sumSq (matVec H (M.learnVector x0.1)) = 0 := by
    refine le_antisymm (le_trans ?_ k6) (sumSq_nonneg _)
    refine List.single_le_sum (fun z hz => ?_) _ (mem_map.2 ⟨x0, hx0, rfl⟩)
    obtain ⟨v, -, rfl⟩ := mem_map.1 hz
    exact sumSq_nonneg _
  have k8 : matVec O.rows (M.learnVector x0.1) = matVec O'.rows (M.learnVector x0.1) := by
    have := sumSq_eq_zero _ k7
    rw [hR] at this
    refine vsub_zero_mem (by rw [length_matVec, length_matVec, lO, lO']) fun z hz => ?_
    have e : vsub (matVec O.rows (M.learnVector x0.1)) (matVec O'.rows (M.learnVector x0.1)) =
        lin2 1 (matVec O.rows (M.learnVector x0.1)) (-1) (matVec O'.rows (M.learnVector x0.1)) := by
      simp only [vsub, lin2, vadd, vsmul, zipWith_map, one_mul, neg_mul, sub_eq_add_neg]
    rw [e, this] at hz
    exact (mem_replicate.1 hz).2
  have hcols : O.ncols = n := by rw [h.ncols, hn]
  refine ⟨?_, by rw [h.nrows, h'.nrows], by rw [hcols, h'.ncols, hn'], lO.trans lO'.symm, hcols ▸ rO, hcols ▸ rO',
    hH ▸ le_antisymm k9 k5, k8⟩
  rw [h.rhs x0 hx0, h'.rhs x0 (hmem x0 hx0), h.value x0 hx0, h'.value x0 (hmem x0 hx0), hlv, hkn, k8]

theorem param_repeated {lib : ItpLib K} {M M' : PModel K S} {N N' : PModel K S'} {T T' : List (ParamData K)} {r m k : Nat}
    (hk : 0 < k) {B B' : List K → List K → K} (hP : ∀ n, Pairing n B)
    (hB : ∀ a b : List K, a.length = M.learnWidth T.length r m → b.length = M.learnWidth T.length r m → B' a b = k * B a b)
    {O O' : Mat K} {y y' : Par K × List K × Option (List K) → List K} (h : ParamFitted lib M M' T r m B O y)
    (h' : ParamFitted lib N N' T' r m B' O' y') (hc : ParamRepeats k M N T T') :
    ∀ x ∈ M.pointsOf T, (N'.rhs lib x.1.1 x.1.2.1 x.1.2.2).2 = (M'.rhs lib x.1.1 x.1.2.1 x.1.2.2).2 := fun x hx =>
  (param_repeated_core hk hP hB h h' hc x hx).1

theorem rows_of_penalty (lam : K) (h0 : lam ≠ 0) (n : Nat) : ∀ O P : List (List K), O.length = P.length →
    (∀ a ∈ O, a.length = n) → (∀ a ∈ P, a.length = n) →
    ((zipWith (fun a b => lin2 1 a (-1) b) O P).map fun h => lam ^ 2 * dot h h).sum = 0 → P = O := by
  intro O
  induction O with
  | nil => intro P hl _ _ _; cases P <;> simp_all
  | cons a O ih =>
    intro P hl hO hP hs
    match P, hl with
    | b :: P, hl =>
      simp only [zipWith_cons_cons, map_cons, sum_cons, ← sumSq_eq_dot] at hs
      have g1 : 0 ≤ lam ^ 2 * sumSq (lin2 1 a (-1) b) := mul_nonneg (sq_nonneg _) (sumSq_nonneg _)
      have g2 : 0 ≤ ((zipWith (fun a b => lin2 1 a (-1) b) O P).map fun h => lam ^ 2 * sumSq h).sum :=
        List.sum_nonneg fun z hz => by
          obtain ⟨v, -, rfl⟩ := mem_map.1 hz
          exact mul_nonneg (sq_nonneg _) (sumSq_nonneg _)
      have g3 : sumSq (lin2 1 a (-1) b) = 0 :=
        (mul_eq_zero.1 (by linarith : lam ^ 2 * sumSq (lin2 1 a (-1) b) = 0)).resolve_left (pow_ne_zero 2 h0)
      have g4 := sumSq_eq_zero _ g3
      have g5 : a = b := by
        refine vsub_zero_mem (by rw [hO a mem_cons_self, hP b mem_cons_self]) fun z hz => ?_
        have e : vsub a b = lin2 1 a (-1) b := by
          simp only [vsub, lin2, vadd, vsmul, zipWith_map, one_mul, neg_mul, sub_eq_add_neg]
        rw [e, g4] at hz
        exact (mem_replicate.1 hz).2
      rw [g5, ih P (by simpa using hl) (fun x hx => hO x (mem_cons_of_mem _ hx)) (fun x hx => hP x (mem_cons_of_mem _ hx)) (by
        simp only [← sumSq_eq_dot]; linarith)]

omit [IsStrictOrderedRing K] in
/-- Without interpolated operators, the number of training parameters does not matter for extracting the operators. -/
theorem pExtract_plain (lib : ItpLib K) (n n' r m : Nat) (O : Mat K) : ∀ ss : List (PSlot K),
    (∀ s ∈ ss, s.op.interp? = none) → ∀ i, pExtract lib n r m O i ss = pExtract lib n' r m O i ss := by
  intro ss
  induction ss with
  | nil => intro _ i; rfl
  | cons s ss ih =>
    intro hp i
    have hd : s.op.dim n r m = s.op.dim n' r m := by
      have := hp s mem_cons_self
      cases ho : s.op <;> simp_all [POp.dim, POp.interp?]
    have := ih fun x hx => hp x (mem_cons_of_mem _ hx)
    simp only [pExtract, hd, this]

omit [IsStrictOrderedRing K] in
theorem prepSlot_plain (d : Nat) (s : PSlot K) (h : s.op.interp? = none) : (prepSlot d s).op.interp? = none := by
  obtain ⟨o, i⟩ := s
  cases o with
  | np o => cases i <;> simp only [prepSlot, POp.clear, POp.fill] <;> rfl
  | aff a => cases i <;> simp only [prepSlot, POp.clear, POp.fill] <;> (first | rfl | (split <;> rfl))
  | itp t => simp [POp.interp?] at h

omit [LinearOrder K] [IsStrictOrderedRing K] in
theorem points_mu (b : Bool) (t : ParamData K) (x : (Par K × List K × Option (List K)) × List K) (h : x ∈ t.points b) :
    x.1.1 = t.mu := by
  have := (of_mem_zip (a := x.1) (b := x.2) h).1
  simp only [dataSamples, flatMap_cons, flatMap_nil, append_nil] at this
  cases b
  · obtain ⟨y, -, hy⟩ := mem_map.1 this
    rw [← hy]
  · obtain ⟨y, -, hy⟩ := mem_map.1 this
    rw [← hy]

omit [IsStrictOrderedRing K] in
theorem slots_of_rows {lib : ItpLib K} {M M' : PModel K S} {N N' : PModel K S'} {T T' : List (ParamData K)} {r m k : Nat}
    (hk : 0 < k) (hp : M.Plain) {B B' : List K → List K → K} {O O' : Mat K} {y y' : Par K × List K × Option (List K) → List K}
    (hO : ParamFitted lib M M' T r m B O y) (hO' : ParamFitted lib N N' T' r m B' O' y') (hc : ParamRepeats k M N T T')
    (e1 : O'.nrows = O.nrows) (e2 : O'.ncols = O.ncols) (hrows : O'.rows = O.rows) : N'.slots = M'.slots := by
  obtain ⟨x, hx⟩ := exists_mem_of_ne_nil _ hO.some
  have hOO : O' = O := by
    cases O; cases O'
    simp only at e1 e2 hrows
    rw [e1, e2, hrows]
  subst hOO
  obtain ⟨d, hd, hx1⟩ := hO.made
  obtain ⟨d', hd', hx2⟩ := hO'.made
  have hx' : x ∈ N.pointsOf T' :=
    hc.samples.mem_iff.2 (mem_flatten.2 ⟨M.pointsOf T, mem_replicate.2 ⟨by omega, rfl⟩, hx⟩)
  obtain ⟨t, ht, hxt⟩ := mem_flatMap.1 hx
  obtain ⟨t', ht', hxt'⟩ := mem_flatMap.1 hx'
  have hdd : d' = d := by rw [← hd t ht, ← hd' t' ht', ← points_mu _ _ _ hxt, ← points_mu _ _ _ hxt']
  rw [hc.slots, hdd, pExtract_plain lib T'.length T.length r m O' _ (fun s hs => by
    obtain ⟨s0, hs0, rfl⟩ := mem_map.1 hs
    exact prepSlot_plain d s0 (hp _ (mem_map.2 ⟨s0, hs0, rfl⟩))) 0, hx1] at hx2
  exact (congrArg Prod.fst hx2).symm

omit [LinearOrder K] [IsStrictOrderedRing K] in
theorem rows_of_determined {M : PModel K S} {n : Nat} {T : List (ParamData K)} (hd : M.DeterminedBy n T) :
    ∀ O P : List (List K), O.length = P.length → (∀ a ∈ O, a.length = n) → (∀ a ∈ P, a.length = n) →
    (∀ x ∈ M.pointsOf T, matVec O (M.learnVector x.1) = matVec P (M.learnVector x.1)) → P = O := by
  intro O
  induction O with
  | nil => intro P hl _ _ _; cases P <;> simp_all
  | cons a O ih =>
    intro P hl hO hP hs
    match P, hl with
    | b :: P, hl =>
      have g4 := hd (lin2 1 a (-1) b) (by simp [lin2, vadd, vsmul, hO a mem_cons_self, hP b mem_cons_self]) (fun x hx => by
        have e := hs x hx
        simp only [matVec, map_cons, cons.injEq] at e
        have := matVec_lin2 [a] [b] 1 (-1) (M.learnVector x.1) (n := n) (by simpa using hO a mem_cons_self)
          (by simpa using hP b mem_cons_self)
        simp only [matVec, map_cons, map_nil, zipWith_cons_cons, zipWith_nil_right, lin2, vadd, vsmul, cons.injEq, and_true] at this ⊢
        rw [this, e.1]
        ring)
      have g5 : a = b := by
        refine vsub_zero_mem (by rw [hO a mem_cons_self, hP b mem_cons_self]) fun z hz => ?_
        have e : vsub a b = lin2 1 a (-1) b := by
          simp only [vsub, lin2, vadd, vsmul, zipWith_map, one_mul, neg_mul, sub_eq_add_neg]
        rw [e] at hz
        exact g4 z hz
      rw [g5, ih P (by simpa using hl) (fun x hx => hO x (mem_cons_of_mem _ hx)) (fun x hx => hP x (mem_cons_of_mem _ hx))
        fun x hx => by
          have e := hs x hx
          simp only [matVec, map_cons, cons.injEq] at e
          exact e.2]

/-! ### Property theorems -/

/-- **C132** (parametric models, `L2Solver`). Two parametric models with the same operators, the second trained with every sample
`k` times and a regularizer `λ'` with `λ'² = k λ²`, agree at all training samples. -/
theorem C132_parametric_l2 (lib : ItpLib K) (svd svd' : Mat K → Except Err (Svd K)) (hsvd : ∀ D u, svd D = .ok u → IsSVD D u)
    (hsvd' : ∀ D u, svd' D = .ok u → IsSVD D u) (M M' N N' : PModel K (L2 K K)) (T T' : List (ParamData K)) (r m k : Nat)
    (hk : 0 < k) (h : ParamTraining lib (l2Solver svd) M M' T r m) (h' : ParamTraining lib (l2Solver svd') N N' T' r m)
    (lam lam' : K) (hl : lam' ^ 2 = k * lam ^ 2) (hlam : ∀ s ∈ M.solver, s.reg = some lam)
    (hlam' : ∀ s ∈ N.solver, s.reg = some lam') (hc : ParamRepeats k M N T T') :
    ∀ x ∈ M.pointsOf T, (N'.rhs lib x.1.1 x.1.2.1 x.1.2.2).2 = (M'.rhs lib x.1.1 x.1.2.1 x.1.2.2).2 := by
  obtain ⟨O, y, hO⟩ := C116_parametric_l2 lib svd hsvd M M' T r m h lam hlam
  obtain ⟨O', y', hO'⟩ := C116_parametric_l2 lib svd' hsvd' N N' T' r m h' lam' hlam'
  exact param_repeated hk (fun n => pairing_dot n lam) (fun a b _ _ => by rw [hl]; ring) hO hO' hc

/-- **C132** (parametric models, `L2Solver`, same operators). If the regularizer is not zero, the two trained models have exactly
the same operators. -/
theorem C132_parametric_l2_operators (lib : ItpLib K) (svd svd' : Mat K → Except Err (Svd K))
    (hsvd : ∀ D u, svd D = .ok u → IsSVD D u) (hsvd' : ∀ D u, svd' D = .ok u → IsSVD D u) (M M' N N' : PModel K (L2 K K))
    (T T' : List (ParamData K)) (r m k : Nat) (hk : 0 < k) (h : ParamTraining lib (l2Solver svd) M M' T r m)
    (h' : ParamTraining lib (l2Solver svd') N N' T' r m) (lam lam' : K) (h0 : lam ≠ 0) (hl : lam' ^ 2 = k * lam ^ 2)
    (hlam : ∀ s ∈ M.solver, s.reg = some lam) (hlam' : ∀ s ∈ N.solver, s.reg = some lam') (hc : ParamRepeats k M N T T') :
    N'.slots = M'.slots := by
  obtain ⟨O, y, hO⟩ := C116_parametric_l2 lib svd hsvd M M' T r m h lam hlam
  obtain ⟨O', y', hO'⟩ := C116_parametric_l2 lib svd' hsvd' N N' T' r m h' lam' hlam'
  obtain ⟨x, hx⟩ := exists_mem_of_ne_nil _ hO.some
  obtain ⟨-, e1, e2, e3, e4, e5, e6, -⟩ := param_repeated_core hk (fun n => pairing_dot n lam)
    (fun a b _ _ => by rw [hl]; ring) hO hO' hc x hx
  exact slots_of_rows hk h.plain hO hO' hc e1 e2 (rows_of_penalty lam h0 O.ncols O.rows O'.rows e3 e4 e5 e6)

/-- **C132** (parametric models, `PlainSolver`). Without regularization it does not matter how often the samples are given. -/
theorem C132_parametric_plain (lib : ItpLib K) (lstsq lstsq' : Mat K → Mat K → Except Err (Mat K))
    (hls : ∀ A B X, lstsq A B = .ok X → IsLstsq A B X) (hls' : ∀ A B X, lstsq' A B = .ok X → IsLstsq A B X)
    (M M' N N' : PModel K (Plain K)) (T T' : List (ParamData K)) (r m k : Nat) (hk : 0 < k)
    (h : ParamTraining lib (plainSolver lstsq) M M' T r m) (h' : ParamTraining lib (plainSolver lstsq') N N' T' r m)
    (hc : ParamRepeats k M N T T') :
    ∀ x ∈ M.pointsOf T, (N'.rhs lib x.1.1 x.1.2.1 x.1.2.2).2 = (M'.rhs lib x.1.1 x.1.2.1 x.1.2.2).2 := by
  obtain ⟨O, y, hO⟩ := C116_parametric_plain lib lstsq hls M M' T r m h
  obtain ⟨O', y', hO'⟩ := C116_parametric_plain lib lstsq' hls' N N' T' r m h'
  exact param_repeated hk (fun n => pairing_zero n) (fun a b _ _ => by ring) hO hO' hc

/-- **C132** (parametric models, `PlainSolver`, same operators). If the training data determine the operators, the two trained
models have exactly the same operators. -/
theorem C132_parametric_plain_operators (lib : ItpLib K) (lstsq lstsq' : Mat K → Mat K → Except Err (Mat K))
    (hls : ∀ A B X, lstsq A B = .ok X → IsLstsq A B X) (hls' : ∀ A B X, lstsq' A B = .ok X → IsLstsq A B X)
    (M M' N N' : PModel K (Plain K)) (T T' : List (ParamData K)) (r m k : Nat) (hk : 0 < k)
    (h : ParamTraining lib (plainSolver lstsq) M M' T r m) (h' : ParamTraining lib (plainSolver lstsq') N N' T' r m)
    (hc : ParamRepeats k M N T T') (hd : M.DeterminedBy (M.learnWidth T.length r m) T) : N'.slots = M'.slots := by
  obtain ⟨O, y, hO⟩ := C116_parametric_plain lib lstsq hls M M' T r m h
  obtain ⟨O', y', hO'⟩ := C116_parametric_plain lib lstsq' hls' N N' T' r m h'
  obtain ⟨x, hx⟩ := exists_mem_of_ne_nil _ hO.some
  have core := param_repeated_core hk (fun n => pairing_zero n) (fun a b _ _ => by ring) hO hO' hc
  obtain ⟨-, e1, e2, e3, e4, e5, -, -⟩ := core x hx
  exact slots_of_rows hk h.plain hO hO' hc e1 e2 (rows_of_determined (hO.ncols ▸ hd) O.rows O'.rows e3 e4 e5
    fun x hx => (core x hx).2.2.2.2.2.2.2)

/-- **C132** (parametric models, `TikhonovSolver`). The same with regularization matrices with `G'ᵀ G' = k Gᵀ G`: the models agree
at all training samples, and have the same operators if the training data determine them. -/
theorem C132_parametric_tikhonov (lib : ItpLib K) (lstsq posSolve lstsq' posSolve' : Mat K → Mat K → Except Err (Mat K))
    (hls : ∀ A B X, lstsq A B = .ok X → IsLstsq A B X)
    (hps : ∀ A B X, A.nrows = B.nrows → A.nrows = A.ncols → posSolve A B = .ok X → IsSolution A B X)
    (hls' : ∀ A B X, lstsq' A B = .ok X → IsLstsq A B X)
    (hps' : ∀ A B X, A.nrows = B.nrows → A.nrows = A.ncols → posSolve' A B = .ok X → IsSolution A B X)
    (M M' N N' : PModel K (Tik (Mat K) K)) (T T' : List (ParamData K)) (r m k : Nat) (hk : 0 < k)
    (h : ParamTraining lib (tikSolver lstsq posSolve) M M' T r m)
    (h' : ParamTraining lib (tikSolver lstsq' posSolve') N N' T' r m) (G G' : Mat K) (hG : G.WF) (hG' : G'.WF)
    (hGG : ∀ a b : List K, a.length = M.learnWidth T.length r m → b.length = M.learnWidth T.length r m →
      dot (matVec G'.rows a) (matVec G'.rows b) = k * dot (matVec G.rows a) (matVec G.rows b))
    (hreg : ∀ s ∈ M.solver, s.reg = some G) (hreg' : ∀ s ∈ N.solver, s.reg = some G') (hc : ParamRepeats k M N T T') :
    (∀ x ∈ M.pointsOf T, (N'.rhs lib x.1.1 x.1.2.1 x.1.2.2).2 = (M'.rhs lib x.1.1 x.1.2.1 x.1.2.2).2) ∧
      (M.DeterminedBy (M.learnWidth T.length r m) T → N'.slots = M'.slots) := by
  obtain ⟨O, y, hO⟩ := C116_parametric_tikhonov lib lstsq posSolve hls hps M M' T r m h G hG hreg
  obtain ⟨O', y', hO'⟩ := C116_parametric_tikhonov lib lstsq' posSolve' hls' hps' N N' T' r m h' G' hG' hreg'
  obtain ⟨x, hx⟩ := exists_mem_of_ne_nil _ hO.some
  have core := param_repeated_core hk (fun n => pairing_matVec n G.rows) hGG hO hO' hc
  obtain ⟨-, e1, e2, e3, e4, e5, -, -⟩ := core x hx
  exact ⟨fun x hx => (core x hx).1, fun hd => slots_of_rows hk h.plain hO hO' hc e1 e2
    (rows_of_determined (hO.ncols ▸ hd) O.rows O'.rows e3 e4 e5 fun x hx => (core x hx).2.2.2.2.2.2.2)⟩

/-! ### Non-vacuity -/

/-- The training parameters of `parRes`, with every sample twice, in another order. -/
def parTwo : List (ParamData ℚ) :=
  [⟨.scalar 1, .mat 1 [[1], [2], [1], [2]], .mat 1 [[7], [6], [7], [6]], .scalar 0⟩,
    ⟨.scalar 4, .mat 1 [[1], [1]], .mat 1 [[8], [8]], .scalar 0⟩]

/-- Least squares restricted to one problem. -/
def parTwoLs (A B : Mat ℚ) : Except Err (Mat ℚ) :=
  if A = ⟨6, 2, [[1, 1], [2, 2], [1, 1], [2, 2], [1, 4], [1, 4]]⟩ ∧ B = ⟨6, 1, [[4], [3], [4], [3], [5], [5]]⟩ then
    .ok ⟨2, 1, [[1], [1]]⟩
  else .error .linalg

theorem parTwoLs_spec (A B X : Mat ℚ) (h : parTwoLs A B = .ok X) : IsLstsq A B X := by
  unfold parTwoLs at h
  split at h
  · rename_i hc
    obtain ⟨rfl, rfl⟩ := hc
    injection h with h
    subst h
    refine ⟨by decide, rfl, rfl, ?_⟩
    intro j hj
    obtain rfl : j = 0 := by simp at hj; exact hj
    refine ⟨rfl, fun o' ho => ?_⟩
    obtain ⟨x, y, rfl⟩ : ∃ x y, o' = [x, y] := by
      match o', ho with
      | [x, y], _ => exact ⟨x, y, rfl⟩
    simp only [sumSq, vsub, matVec, dot, col, map_cons, map_nil, zipWith_cons_cons, zipWith_nil_right, sum_cons, sum_nil,
      getD_cons_zero, zipWith_nil_left]
    have := add_nonneg (sq_nonneg (x + y - 2)) (sq_nonneg (x + 4 * y - 5))
    nlinarith
  · cases h

theorem parTwo_done : ParamTraining toyLib (plainSolver parTwoLs) pOptEx
    (pOptEx.fitOn toyLib (plainSolver parTwoLs) parTwo).1 parTwo 1 0 := by
  have hfin : ∀ x : PModel ℚ (Plain ℚ) × Except Err Unit, x.2 = .ok () → x = (x.1, .ok ()) := by
    rintro ⟨a, b⟩ rfl
    rfl
  refine ⟨rfl, ?_, ⟨by simp [parTwo], by simp [pOptEx], ?_, ?_, ?_, by decide, ?_, ?_, by simp, ?_, ?_⟩,
    ?_, hfin _ (by decide +kernel)⟩
  · intro o ho
    simp only [PModel.ops, pOptEx, map_cons, map_nil, mem_cons, not_mem_nil, or_false] at ho
    rcases ho with rfl | rfl <;> rfl
  · intro a ha
    simp only [parTwo, map_cons, map_nil, mem_cons, not_mem_nil, or_false] at ha
    rcases ha with rfl | rfl <;> simp [Arg.WF, atleast2d]
  · intro a ha
    simp only [parTwo, map_cons, map_nil, mem_cons, not_mem_nil, or_false] at ha
    rcases ha with rfl | rfl <;> simp [Arg.WF, atleast2d]
  · intro us hus
    simp [pOptEx] at hus
  · intro a ha
    simp only [parTwo, map_cons, map_nil, mem_cons, not_mem_nil, or_false] at ha
    rcases ha with rfl | rfl <;> rfl
  · intro hi
    simp [pOptEx] at hi
  · intro o ho
    simp only [PModel.ops, pOptEx, map_cons, map_nil, mem_cons, not_mem_nil, or_false] at ho
    rcases ho with rfl | rfl <;> simp [POp.kind, OpKind.hasInputs]
  · intro s hs hi mu _
    simp only [pOptEx, mem_cons, not_mem_nil, or_false] at hs
    rcases hs with rfl | rfl
    · simp at hi
    · exact ⟨⟨.const, some ⟨1, 1, [[3]]⟩⟩, rfl, rfl, _, rfl, ⟨rfl, by decide⟩, rfl, rfl⟩
  · intro s hs hi
    simp only [pOptEx, mem_cons, not_mem_nil, or_false] at hs
    rcases hs with rfl | rfl
    · exact ⟨by decide, fun mu hmu => ⟨_, rfl, by
        simp only [parTwo, map_cons, map_nil, mem_cons, not_mem_nil, or_false] at hmu
        rcases hmu with rfl | rfl <;> rfl⟩⟩
    · simp at hi

-- all hypotheses of `C132_parametric_plain` hold for data that do not fit exactly
example : ∀ x ∈ pOptEx.pointsOf parRes,
    ((pOptEx.fitOn toyLib (plainSolver parTwoLs) parTwo).1.rhs toyLib x.1.1 x.1.2.1 x.1.2.2).2 =
      ((pOptEx.fitOn toyLib (plainSolver parResLs) parRes).1.rhs toyLib x.1.1 x.1.2.1 x.1.2.2).2 :=
  C132_parametric_plain toyLib parResLs parTwoLs parResLs_spec parTwoLs_spec _ _ _ _ _ _ 1 0 2 (by decide) parRes_done parTwo_done
    ⟨rfl, by decide +kernel⟩

-- the data of this example determine the operators
example : (pOptEx.fitOn toyLib (plainSolver parTwoLs) parTwo).1.slots =
    (pOptEx.fitOn toyLib (plainSolver parResLs) parRes).1.slots :=
  C132_parametric_plain_operators toyLib parResLs parTwoLs parResLs_spec parTwoLs_spec _ _ _ _ _ _ 1 0 2 (by decide) parRes_done
    parTwo_done ⟨rfl, by decide +kernel⟩ (by
      intro v hv h0
      obtain ⟨a, b, rfl⟩ : ∃ a b, v = [a, b] := by
        match v, hv with
        | [a, b], _ => exact ⟨a, b, rfl⟩
      have e1 := h0 ((.scalar 1, [1], none), [7]) (by decide +kernel)
      have e2 := h0 ((.scalar 4, [1], none), [8]) (by decide +kernel)
      have f1 : pOptEx.learnVector (.scalar 1, [1], none) = [1, 1] := by decide +kernel
      have f2 : pOptEx.learnVector (.scalar 4, [1], none) = [1, 4] := by decide +kernel
      simp only [f1, f2, dot, zipWith_cons_cons, zipWith_nil_right, sum_cons, sum_nil] at e1 e2
      intro z hz
      simp only [mem_cons, not_mem_nil, or_false] at hz
      rcases hz with rfl | rfl <;> linarith)

/-- Singular value decompositions of the data matrices below. -/
def parL2Svd (D : Mat ℚ) : Except Err (Svd ℚ) :=
  if D = ⟨2, 1, [[3], [4]]⟩ then .ok ⟨⟨2, 1, [[3 / 5], [4 / 5]]⟩, [5], ⟨1, 1, [[1]]⟩⟩
  else if D = ⟨8, 1, [[3], [3], [3], [3], [4], [4], [4], [4]]⟩ then
    .ok ⟨⟨8, 1, [[3 / 10], [3 / 10], [3 / 10], [3 / 10], [4 / 10], [4 / 10], [4 / 10], [4 / 10]]⟩, [10], ⟨1, 1, [[1]]⟩⟩
  else .error .linalg

theorem parL2Svd_spec (D : Mat ℚ) (u : Svd ℚ) (h : parL2Svd D = .ok u) : IsSVD D u := by
  unfold parL2Svd at h
  split at h
  · rename_i hD
    injection h with h
    subst h
    subst hD
    refine ⟨⟨rfl, by simp⟩, ⟨rfl, by simp⟩, rfl, rfl, rfl, rfl, fun x hx => ?_, fun v w hv hw => ?_, fun v hv => ?_⟩
    · match x, hx with
      | [x], _ =>
        simp only [matVec, dot, map_cons, map_nil, zipWith_cons_cons, zipWith_nil_right, sum_cons, sum_nil, cons.injEq, and_true]
        constructor <;> ring
    · match v, w, hv, hw with
      | [v], [w], _, _ =>
        simp only [matVec, dot, map_cons, map_nil, zipWith_cons_cons, zipWith_nil_right, sum_cons, sum_nil]
        ring
    · match v, hv with
      | [v], _ => simp [matVec, dot, vecMat, vadd, vsmul]
  · split at h
    · rename_i hD
      injection h with h
      subst h
      subst hD
      refine ⟨⟨rfl, by simp⟩, ⟨rfl, by simp⟩, rfl, rfl, rfl, rfl, fun x hx => ?_, fun v w hv hw => ?_, fun v hv => ?_⟩
      · match x, hx with
        | [x], _ =>
          simp only [matVec, dot, map_cons, map_nil, zipWith_cons_cons, zipWith_nil_right, sum_cons, sum_nil, cons.injEq, and_true]
          refine ⟨?_, ?_, ?_, ?_, ?_, ?_, ?_, ?_⟩ <;> ring
      · match v, w, hv, hw with
        | [v], [w], _, _ =>
          simp only [matVec, dot, map_cons, map_nil, zipWith_cons_cons, zipWith_nil_right, sum_cons, sum_nil]
          ring
      · match v, hv with
        | [v], _ => simp [matVec, dot, vecMat, vadd, vsmul]
    · cases h

/-- A scalar model with the operator `mu a` to infer and the solver `s`. -/
def parOneEx {S : Type} (s : S) : PModel ℚ S where
  slots := [⟨.aff ⟨.lin, 1, fun mu => .ok (.vec mu.toList), none, none⟩, true⟩]
  hasInputs := false
  r := none
  m := some 0
  intrusive := false
  solver := some s
  p := none
  s := none

/-- Two training parameters with one sample, given `n` times. -/
def parL2Data (n : Nat) : List (ParamData ℚ) :=
  [⟨.scalar 3, .mat 1 (replicate n [1]), .mat 1 (replicate n [2]), .scalar 0⟩,
    ⟨.scalar 4, .mat 1 (replicate n [1]), .mat 1 (replicate n [1]), .scalar 0⟩]

theorem parOne_done {S : Type} (I : SolverI ℚ S) (s₀ : S) (n : Nat)
    (hok : ((parOneEx s₀).fitOn toyLib I (parL2Data n)).2 = .ok ()) :
    ParamTraining toyLib I (parOneEx s₀)
      ((parOneEx s₀).fitOn toyLib I (parL2Data n)).1 (parL2Data n) 1 0 := by
  have hfin : ∀ x : PModel ℚ S × Except Err Unit, x.2 = .ok () → x = (x.1, .ok ()) := by
    rintro ⟨a, b⟩ rfl
    rfl
  refine ⟨rfl, ?_, ⟨by simp [parL2Data], by simp [parOneEx], ?_, ?_, ?_, ?_, ?_, ?_, by simp, ?_, ?_⟩, ?_, hfin _ hok⟩
  · intro o ho
    simp only [PModel.ops, parOneEx, map_cons, map_nil, mem_cons, not_mem_nil, or_false] at ho
    subst ho
    rfl
  · intro a ha
    simp only [parL2Data, map_cons, map_nil, mem_cons, not_mem_nil, or_false] at ha
    rcases ha with rfl | rfl <;> simp [Arg.WF, atleast2d]
  · intro a ha
    simp only [parL2Data, map_cons, map_nil, mem_cons, not_mem_nil, or_false] at ha
    rcases ha with rfl | rfl <;> simp [Arg.WF, atleast2d]
  · intro us hus
    simp [parOneEx] at hus
  · simp [parL2Data, atleast2d]
  · intro a ha
    simp only [parL2Data, map_cons, map_nil, mem_cons, not_mem_nil, or_false] at ha
    rcases ha with rfl | rfl <;> rfl
  · intro hi
    simp [parOneEx] at hi
  · intro o ho
    simp only [PModel.ops, parOneEx, map_cons, map_nil, mem_cons, not_mem_nil, or_false] at ho
    subst ho
    simp [POp.kind, OpKind.hasInputs]
  · intro s hs hi mu _
    simp only [parOneEx, mem_cons, not_mem_nil, or_false] at hs
    subst hs
    simp at hi
  · intro s hs hi
    simp only [parOneEx, mem_cons, not_mem_nil, or_false] at hs
    subst hs
    exact ⟨by decide, fun mu hmu => ⟨_, rfl, by
      simp only [parL2Data, map_cons, map_nil, mem_cons, not_mem_nil, or_false] at hmu
      rcases hmu with rfl | rfl <;> rfl⟩⟩

/-- `L2Solver(1)` and `L2Solver(2)`. -/
def parL2₁ : L2 ℚ ℚ := ⟨some 1, none, none⟩

def parL2₂ : L2 ℚ ℚ := ⟨some 2, none, none⟩

-- all hypotheses of `C132_parametric_l2_operators` hold: every sample four times, regularizers `1` and `2`
example : ((parOneEx parL2₂).fitOn toyLib (l2Solver parL2Svd) (parL2Data 4)).1.slots =
    ((parOneEx parL2₁).fitOn toyLib (l2Solver parL2Svd) (parL2Data 1)).1.slots :=
  C132_parametric_l2_operators toyLib parL2Svd parL2Svd parL2Svd_spec parL2Svd_spec _ _ _ _ _ _ 1 0 4 (by decide)
    (parOne_done _ _ 1 (by decide +kernel)) (parOne_done _ _ 4 (by decide +kernel)) 1 2 (by decide) (by norm_num)
    (by simp [parOneEx, parL2₁]) (by simp [parOneEx, parL2₂]) ⟨rfl, by decide +kernel⟩

/-- Least squares for the two padded problems of `TikhonovSolver`. -/
def parTikLs (A B : Mat ℚ) : Except Err (Mat ℚ) :=
  if A = ⟨3, 1, [[3], [4], [1]]⟩ ∧ B = ⟨3, 1, [[2], [1], [0]]⟩ then .ok ⟨1, 1, [[5 / 13]]⟩
  else if A = ⟨9, 1, [[3], [3], [3], [3], [4], [4], [4], [4], [2]]⟩ ∧
    B = ⟨9, 1, [[2], [2], [2], [2], [1], [1], [1], [1], [0]]⟩ then .ok ⟨1, 1, [[5 / 13]]⟩
  else .error .linalg

theorem parTikLs_spec (A B X : Mat ℚ) (h : parTikLs A B = .ok X) : IsLstsq A B X := by
  unfold parTikLs at h
  split at h
  · rename_i hc
    obtain ⟨rfl, rfl⟩ := hc
    injection h with h
    subst h
    refine ⟨by decide, rfl, rfl, ?_⟩
    intro j hj
    obtain rfl : j = 0 := by simp at hj; exact hj
    refine ⟨rfl, fun o' ho => ?_⟩
    obtain ⟨x, rfl⟩ : ∃ x, o' = [x] := by
      match o', ho with
      | [x], _ => exact ⟨x, rfl⟩
    simp only [sumSq, vsub, matVec, dot, col, map_cons, map_nil, zipWith_cons_cons, zipWith_nil_right, sum_cons, sum_nil,
      getD_cons_zero, zipWith_nil_left]
    have := sq_nonneg (13 * x - 5)
    nlinarith
  · split at h
    · rename_i hc
      obtain ⟨rfl, rfl⟩ := hc
      injection h with h
      subst h
      refine ⟨by decide, rfl, rfl, ?_⟩
      intro j hj
      obtain rfl : j = 0 := by simp at hj; exact hj
      refine ⟨rfl, fun o' ho => ?_⟩
      obtain ⟨x, rfl⟩ : ∃ x, o' = [x] := by
        match o', ho with
        | [x], _ => exact ⟨x, rfl⟩
      simp only [sumSq, vsub, matVec, dot, col, map_cons, map_nil, zipWith_cons_cons, zipWith_nil_right, sum_cons, sum_nil,
        getD_cons_zero, zipWith_nil_left]
      have := sq_nonneg (13 * x - 5)
      nlinarith
    · cases h

/-- `TikhonovSolver([[1]])` and `TikhonovSolver([[2]])`. -/
def parTik₁ : Tik (Mat ℚ) ℚ := ⟨some ⟨1, 1, [[1]]⟩, .lstsq, none, none⟩

def parTik₂ : Tik (Mat ℚ) ℚ := ⟨some ⟨1, 1, [[2]]⟩, .lstsq, none, none⟩

-- all hypotheses of `C132_parametric_tikhonov` hold, with `G = [1]` and `G' = [2]`
example : ((parOneEx parTik₂).fitOn toyLib (tikSolver parTikLs fun _ _ => .error .linalg) (parL2Data 4)).1.slots =
    ((parOneEx parTik₁).fitOn toyLib (tikSolver parTikLs fun _ _ => .error .linalg) (parL2Data 1)).1.slots := by
  refine (C132_parametric_tikhonov toyLib parTikLs (fun _ _ => .error .linalg) parTikLs (fun _ _ => .error .linalg) parTikLs_spec
    (fun _ _ _ _ _ h => by cases h) parTikLs_spec (fun _ _ _ _ _ h => by cases h) _ _ _ _ _ _ 1 0 4 (by decide)
    (parOne_done _ parTik₁ 1 (by decide +kernel)) (parOne_done _ parTik₂ 4 (by decide +kernel)) ⟨1, 1, [[1]]⟩ ⟨1, 1, [[2]]⟩
    ⟨rfl, by simp⟩ ⟨rfl, by simp⟩ ?_ (by simp [parOneEx, parTik₁]) (by simp [parOneEx, parTik₂]) ⟨rfl, by decide +kernel⟩).2 ?_
  · intro a b ha hb
    obtain ⟨x, rfl⟩ : ∃ x, a = [x] := by
      match a, ha with
      | [x], _ => exact ⟨x, rfl⟩
    obtain ⟨y, rfl⟩ : ∃ y, b = [y] := by
      match b, hb with
      | [y], _ => exact ⟨y, rfl⟩
    simp only [matVec, dot, map_cons, map_nil, zipWith_cons_cons, zipWith_nil_right, sum_cons, sum_nil]
    push_cast
    ring
  · intro v hv h0
    obtain ⟨a, rfl⟩ : ∃ a, v = [a] := by
      match v, hv with
      | [a], _ => exact ⟨a, rfl⟩
    have e1 := h0 ((.scalar 3, [1], none), [2]) (by decide +kernel)
    have f1 : (parOneEx parTik₁).learnVector (.scalar 3, [1], none) = [3] := by decide +kernel
    simp only [f1, dot, zipWith_cons_cons, zipWith_nil_right, sum_cons, sum_nil] at e1
    intro z hz
    simp only [mem_cons, not_mem_nil, or_false] at hz
    subst hz
    linarith

end Opinf
