import Verif.Lemmas.NormalEq

/-!
# C116: the residuals of training are orthogonal to everything the model could have learned

Specification: sums over the training samples of products of residuals with the entries of the data vectors.
-/

namespace Opinf

open List

variable {K : Type}

section

variable [Field K] [LinearOrder K] [IsStrictOrderedRing K]

/-- The number of columns of the operator matrix that is learned. -/
def Training.width {S : Type} (t : Training K S) (r m : Nat) : Nat := (t.before.toInfer.map fun o => o.dim r m).sum

/-- The entries of the data blocks at a state and input, in the order of the operators to be learned. -/
def Training.features {S : Type} (t : Training K S) (q : List K) (u : Option (List K)) : List K :=
  dataVector t.before.toInfer q (u.getD [])

/-- The residual of the trained model at a sample. -/
def Training.gap {S : Type} (t : Training K S) (x : TrainSample K) : List K := vsub x.z (t.after.value x.q x.u)

/-- What the trained model is: `O` is its operator matrix, and its right-hand side is `O` times the data vector plus the
contribution of the known operators. -/
structure Training.Has {S : Type} (t : Training K S) (r m : Nat) (O : Mat K) : Prop where
  opMatrix : t.after.operatorMatrix = .ok O
  wf : O.WF
  nrows : O.nrows = r
  ncols : O.ncols = t.width r m
  samples : ∀ x ∈ t.samples, x.q.length = r ∧ x.z.length = r ∧ ∀ o ∈ t.before.ops, InputOK o.kind m x.u
  output : ∀ q u, q.length = r → (∀ o ∈ t.before.ops, InputOK o.kind m u) →
    t.after.rhs q u = .ok (vadd (matVec O.rows (t.features q u)) (t.before.knownPart.value q u)) ∧
    (t.before.knownPart.value q u).length = r

/-- The residuals are orthogonal to all outputs of operator matrices, up to the penalty. -/
def Training.Orthogonal {S : Type} (t : Training K S) (r m : Nat) (B : List K → List K → K) (O : Mat K) : Prop :=
  ∀ H : Mat K, H.WF → H.nrows = r → H.ncols = t.width r m →
    (t.samples.map fun x => dot (t.gap x) (matVec H.rows (t.features x.q x.u))).sum = (zipWith B O.rows H.rows).sum

/-- Both together. -/
structure Training.Fitted {S : Type} (t : Training K S) (r m : Nat) (B : List K → List K → K) (O : Mat K) : Prop where
  has : t.Has r m O
  pairing : Pairing (t.width r m) B
  orthogonal : t.Orthogonal r m B O

omit [LinearOrder K] [IsStrictOrderedRing K] in
theorem toInfer_ok {S : Type} {M : Model K S} {m : Nat} {u : Option (List K)}
    (h : ∀ o ∈ M.ops, InputOK o.kind m u) : ∀ k ∈ M.toInfer, InputOK k m u := by
  intro k hk
  obtain ⟨s, hs, rfl⟩ := mem_map.1 hk
  exact h s.op (mem_map.2 ⟨s, (mem_filter.1 hs).1, rfl⟩)

/-- A trained model and its matrix. -/
theorem has_of {S : Type} {t : Training K S} {r m : Nat} {O : Mat K} (ho : t.after.operatorMatrix = .ok O) (hwf : O.WF)
    (hst : Forall₂ TrainStep t.before.slots t.after.slots) (hc : ∀ o ∈ t.after.ops, o.Cal r m)
    (hx : ∀ x ∈ t.samples, x.q.length = r ∧ x.z.length = r ∧ ∀ o ∈ t.before.ops, InputOK o.kind m x.u) : t.Has r m O := by
  obtain ⟨kn, kd⟩ := trainStep_known hst
  have hcl : ∀ o ∈ t.after.learned, o.Cal r m := by
    intro o ho
    obtain ⟨s, hs, rfl⟩ := mem_map.1 ho
    exact hc _ (mem_map.2 ⟨s, (mem_filter.1 hs).1, rfl⟩)
  obtain ⟨o1, o2, o3⟩ := operatorMatrix_stack ho hcl
  have hkd : t.after.learned.map Op.kind = t.before.toInfer := kd
  refine ⟨ho, hwf, o1, ?_, hx, fun q u hq hu => ?_⟩
  · rw [o2, Training.width, ← hkd, map_map]; rfl
  have hin : ∀ o ∈ t.after.ops, InputOK o.kind m u := by
    intro o ho
    obtain ⟨s', hs', rfl⟩ := mem_map.1 ho
    obtain ⟨s, hs, hss⟩ := forall₂_mem_right hst hs'
    rw [hss.2.1]
    exact hu _ (mem_map.2 ⟨s, hs, rfl⟩)
  have hinl : ∀ o ∈ t.after.learned, InputOK o.kind m u := by
    intro o ho
    obtain ⟨s, hs, rfl⟩ := mem_map.1 ho
    exact hin _ (mem_map.2 ⟨s, (mem_filter.1 hs).1, rfl⟩)
  have hkn : t.before.knownPart.ops = (t.after.slots.filter fun s => !s.infer).map Slot.op := by rw [kn]; rfl
  have hck : ∀ o ∈ t.before.knownPart.ops, o.Cal r m := by
    intro o ho
    rw [hkn] at ho
    obtain ⟨s, hs, rfl⟩ := mem_map.1 ho
    exact hc _ (mem_map.2 ⟨s, (mem_filter.1 hs).1, rfl⟩)
  have hk : t.before.knownPart.rhs q u = .ok (rhsVal t.before.knownPart.ops r q u) := by
    refine rhs_eq _ r m hck q u hq fun o ho => ?_
    rw [hkn] at ho
    obtain ⟨s, hs, rfl⟩ := mem_map.1 ho
    exact hin _ (mem_map.2 ⟨s, (mem_filter.1 hs).1, rfl⟩)
  rw [value_of hk]
  refine ⟨?_, length_rhsVal _ r m hck _ _⟩
  rw [rhs_eq t.after r m hc q u hq hin, o3, Training.features, ← hkd, ← rhsVal_stack hcl q u hq hinl, hkn]
  congr 1
  exact rhsVal_split (m := m) t.after.slots (fun s hs => hc _ (mem_map.2 ⟨s, hs, rfl⟩)) q u

theorem fitted_of {S : Type} {t : Training K S} {r m : Nat} {B : List K → List K → K} {O : Mat K}
    (hB : Pairing (t.width r m) B)
    (h : TrainedOptimally t.before t.after t.samples (fun O => (O.rows.map fun a => B a a).sum) O)
    (hst : Forall₂ TrainStep t.before.slots t.after.slots) (hc : ∀ o ∈ t.after.ops, o.Cal r m)
    (hx : ∀ x ∈ t.samples, x.q.length = r ∧ x.z.length = r ∧ ∀ o ∈ t.before.ops, InputOK o.kind m x.u) :
    t.Fitted r m B O := by
  have hh := has_of h.opMatrix h.wf hst hc hx
  refine ⟨hh, hB, fun H hH h1 h2 => ?_⟩
  obtain ⟨hl, hr⟩ := hh.wf
  rw [hh.nrows] at hl
  rw [hh.ncols] at hr
  obtain ⟨hl', hr'⟩ := hH
  rw [h1] at hl'
  rw [h2] at hr'
  have hval : ∀ x ∈ t.samples, t.after.value x.q x.u =
      vadd (matVec O.rows (t.features x.q x.u)) (t.before.knownPart.value x.q x.u) := fun x hx' =>
    value_of (hh.output x.q x.u (hx x hx').1 (hx x hx').2.2).1
  have key := (minimal_iff hB t.samples (fun x => t.before.knownPart.value x.q x.u) t.before.toInfer
    (fun x hx' => (hx x hx').2.1) (fun x hx' => (hh.output x.q x.u (hx x hx').1 (hx x hx').2.2).2) O.rows hl hr).1
    (fun R hR hRr => by
      have := h.optimal ⟨r, t.width r m, R⟩ ⟨hR, hRr⟩ hh.nrows.symm hh.ncols.symm
      have e1 : (t.samples.map fun x => sumSq (vsub x.z (t.after.value x.q x.u))) =
          t.samples.map fun x => sumSq (vsub x.z (vadd (matVec O.rows (dataVector t.before.toInfer x.q (x.u.getD [])))
            (t.before.knownPart.value x.q x.u))) := map_congr_left fun x hx' => by rw [hval x hx']; rfl
      rw [e1] at this
      exact this) H.rows hl' hr'
  rw [← key]
  refine congrArg List.sum (map_congr_left fun x hx' => ?_)
  rw [Training.gap, hval x hx']
  rfl

/-! ### Property theorems -/

/-- **C116** (`L2Solver`). After training with regularizer `λ`, the residuals satisfy
`Σ ⟨residual, H d⟩ = λ² ⟨O, H⟩` for all matrices `H` of the shape of the operator matrix `O`, where `d` is the data vector
of a sample. -/
theorem C116_l2 (svd : Mat K → Except Err (Svd K)) (hsvd : ∀ D u, svd D = .ok u → IsSVD D u) (t : Training K (L2 K K))
    (r m : Nat) (lam : K) (h : t.Done (l2Solver svd) r m) (hlam : ∀ s ∈ t.before.solver, s.reg = some lam) :
    ∃ O, t.Fitted r m (fun a b => lam ^ 2 * dot a b) O := by
  obtain ⟨O, hO⟩ := h.l2 hsvd hlam
  obtain ⟨a1, a2, a3⟩ := h.facts (l2Solver_shaped svd (fun D u h => ⟨(hsvd D u h).psiWF, (hsvd D u h).psiCols⟩) _)
  refine ⟨O, fitted_of (pairing_dot _ lam) ?_ a1 a2 a3⟩
  have e : (fun O : Mat K => lam ^ 2 * (O.rows.map sumSq).sum) = fun O => (O.rows.map fun a => lam ^ 2 * dot a a).sum := by
    funext O
    rw [← List.sum_map_mul_left]
    simp only [sumSq_eq_dot]
  rw [← e]
  exact hO

omit [IsStrictOrderedRing K] in
theorem pairing_zero (n : Nat) : Pairing n fun _ _ : List K => (0 : K) :=
  ⟨fun _ => le_refl _, fun _ _ => rfl, fun _ _ _ c d _ _ _ => by ring⟩

/-- **C116** (`PlainSolver`). Without regularization the residuals are orthogonal to all outputs. -/
theorem C116_plain (lstsq : Mat K → Mat K → Except Err (Mat K)) (hls : ∀ A B X, lstsq A B = .ok X → IsLstsq A B X)
    (t : Training K (Plain K)) (r m : Nat) (h : t.Done (plainSolver lstsq) r m) :
    ∃ O, t.Fitted r m (fun _ _ => 0) O := by
  obtain ⟨O, hO⟩ := h.plain hls
  obtain ⟨a1, a2, a3⟩ := h.facts
    (plainSolver_shaped lstsq (fun A B X h => ⟨(hls A B X h).wf, (hls A B X h).rows, (hls A B X h).cols⟩) _)
  refine ⟨O, fitted_of (pairing_zero _) ?_ a1 a2 a3⟩
  have e : (fun O : Mat K => (0 : K) ^ 2 * (O.rows.map sumSq).sum) = fun O => (O.rows.map fun _ => (0 : K)).sum := by
    funext O
    simp
  rw [← e]
  exact hO

/-- **C116** (`TikhonovSolver`). With regularization matrix `G` the residuals satisfy
`Σ ⟨residual, H d⟩ = Σ ⟨G oᵢ, G hᵢ⟩` (rows of `O` and `H`). -/
theorem C116_tikhonov (lstsq posSolve : Mat K → Mat K → Except Err (Mat K))
    (hls : ∀ A B X, lstsq A B = .ok X → IsLstsq A B X)
    (hps : ∀ A B X, A.nrows = B.nrows → A.nrows = A.ncols → posSolve A B = .ok X → IsSolution A B X)
    (t : Training K (Tik (Mat K) K)) (r m : Nat) (h : t.Done (tikSolver lstsq posSolve) r m) (G : Mat K) (hG : G.WF)
    (hreg : ∀ s ∈ t.before.solver, s.reg = some G) :
    ∃ O, t.Fitted r m (fun a b => dot (matVec G.rows a) (matVec G.rows b)) O := by
  have hd := h
  obtain ⟨h1, h2, h3, h4, h5, h6, h7, h8, h9⟩ := hd
  obtain ⟨s, G', O, y, w, g1, g2, g3⟩ := C62_tikhonov_fit_is_optimal lstsq posSolve hls hps t.before h1 h2
    (fun s hs G' hG' => by
      have := hreg s hs
      rw [Option.mem_def] at hG'
      rw [hG', Option.some.injEq] at this
      exact this ▸ hG) _ _ _ h3 h4 h5 (by rw [h6]; exact h7) t.after h9
  have := hreg s (by rw [g1]; rfl)
  rw [g2, Option.some.injEq] at this
  subst this
  obtain ⟨a1, a2, a3⟩ := h.facts (tikSolver_shaped lstsq posSolve
    (fun A B X h => ⟨(hls A B X h).wf, (hls A B X h).rows, (hls A B X h).cols⟩)
    (fun A B X e1 e2 h => ⟨(hps A B X e1 e2 h).wf, (hps A B X e1 e2 h).rows.trans e2.symm, (hps A B X e1 e2 h).cols⟩) _)
  refine ⟨O, fitted_of (pairing_matVec _ G'.rows) ?_ a1 a2 a3⟩
  have e : (fun O : Mat K => (O.rows.map fun o => sumSq (matVec G'.rows o)).sum) =
      fun O => (O.rows.map fun a => dot (matVec G'.rows a) (matVec G'.rows a)).sum := by
    funext O
    simp only [sumSq_eq_dot]
  rw [← e]
  exact trainedOptimally_of g3

/-- The matrix with a single entry 1. -/
def oneEntry (r d i j : Nat) : Mat K :=
  ⟨r, d, (range r).map fun a => if a = i then (range d).map (fun b => if j = b then 1 else 0) else replicate d 0⟩

omit [LinearOrder K] [IsStrictOrderedRing K] in
theorem oneEntry_wf (r d i j : Nat) : (oneEntry r d i j : Mat K).WF := by
  refine ⟨by simp [oneEntry], fun row hrow => ?_⟩
  obtain ⟨a, _, rfl⟩ := mem_map.1 hrow
  split <;> simp [oneEntry]

omit [LinearOrder K] [IsStrictOrderedRing K] in
theorem dot_zeros (d : Nat) (v : List K) : dot (replicate d 0) v = 0 := by
  induction d generalizing v with
  | zero => simp [dot]
  | succ d ih =>
    cases v with
    | nil => simp [dot]
    | cons a v =>
      have := ih v
      simp only [dot, replicate_succ, zipWith_cons_cons, sum_cons, zero_mul, zero_add] at this ⊢
      exact this

omit [LinearOrder K] [IsStrictOrderedRing K] in
theorem dot_oneEntry {r d i j : Nat} (v e : List K) (hv : v.length = d) (he : e.length = r) (hi : i < r) (hj : j < d) :
    dot e (matVec (oneEntry r d i j : Mat K).rows v) = e.getD i 0 * v.getD j 0 := by
  have h1 : matVec (oneEntry r d i j : Mat K).rows v =
      vsmul (v.getD j 0) ((range r).map fun a => if i = a then 1 else 0) := by
    simp only [matVec, oneEntry, vsmul, map_map]
    refine map_congr_left fun a _ => ?_
    simp only [Function.comp_apply]
    by_cases h : a = i
    · subst h
      rw [if_pos rfl, if_pos rfl, dot_comm', dot_unit d j v hv hj, mul_one]
    · rw [if_neg h, if_neg (fun e => h e.symm), dot_zeros, mul_zero]
  rw [h1, dot_vsmul_right, dot_unit r i e he hi]
  ring

theorem Training.Has.value {S : Type} {t : Training K S} {r m : Nat} {O : Mat K} (h : t.Has r m O) {x : TrainSample K}
    (hx : x ∈ t.samples) : t.after.rhs x.q x.u = .ok (t.after.value x.q x.u) ∧
      t.after.value x.q x.u = vadd (matVec O.rows (t.features x.q x.u)) (t.before.knownPart.value x.q x.u) ∧
      (t.after.value x.q x.u).length = r ∧ (t.gap x).length = r := by
  obtain ⟨h1, h2, h3⟩ := h.samples x hx
  obtain ⟨h4, h5⟩ := h.output x.q x.u h1 h3
  have h6 := value_of h4
  have hl : (t.after.value x.q x.u).length = r := by
    rw [h6, length_vadd, length_matVec, h.wf.1, h.nrows, h5, min_self]
  exact ⟨by rw [h4, h6], h6, hl, by rw [Training.gap, length_vsub, h2, hl, min_self]⟩

/-- **C116** (every entry of the data). Without regularization each component of the residual is orthogonal to each entry
of the data vector: the sum over the samples of their products is zero. -/
theorem C116_moments {S : Type} {t : Training K S} {r m : Nat} {O : Mat K} (h : t.Fitted r m (fun _ _ => 0) O) {i j : Nat}
    (hi : i < r) (hj : j < t.width r m) :
    (t.samples.map fun x => (t.gap x).getD i 0 * (t.features x.q x.u).getD j 0).sum = 0 := by
  have := h.orthogonal (oneEntry r (t.width r m) i j) (oneEntry_wf _ _ _ _) rfl rfl
  rw [show (zipWith (fun _ _ : List K => (0 : K)) O.rows (oneEntry r (t.width r m) i j : Mat K).rows).sum = 0 by
    refine List.sum_eq_zero fun y hy => ?_
    obtain ⟨k, hk, rfl⟩ := getElem_of_mem hy
    simp] at this
  refine Eq.trans ?_ this
  refine congrArg List.sum (map_congr_left fun x hx => ?_)
  obtain ⟨h1, h2, h3⟩ := h.has.samples x hx
  exact (dot_oneEntry _ _ (dataVector_length _ h1 (toInfer_ok h3)) (h.has.value hx).2.2.2 hi hj).symm

/-- **C116** (constant operator). If a constant operator is learned without regularization, the residuals sum to zero: the
trained model has the right mean. -/
theorem C116_mean {S : Type} {t : Training K S} {r m : Nat} {O : Mat K} (h : t.Fitted r m (fun _ _ => 0) O)
    (hc : OpKind.const ∈ t.before.toInfer) {i : Nat} (hi : i < r) :
    (t.samples.map fun x => x.z.getD i 0).sum = (t.samples.map fun x => (t.after.value x.q x.u).getD i 0).sum := by
  obtain ⟨k1, k2, hk⟩ := append_of_mem hc
  have hw : t.width r m = (k1.map fun o => o.dim r m).sum + (1 + (k2.map fun o => o.dim r m).sum) := by
    rw [Training.width, hk, map_append, sum_append, map_cons, sum_cons]
    rfl
  have key := C116_moments h hi (j := (k1.map fun o => o.dim r m).sum) (by omega)
  have e : (t.samples.map fun x => (t.gap x).getD i 0 * (t.features x.q x.u).getD (k1.map fun o => o.dim r m).sum 0) =
      t.samples.map fun x => x.z.getD i 0 - (t.after.value x.q x.u).getD i 0 := by
    refine map_congr_left fun x hx => ?_
    obtain ⟨h1, h2, h3⟩ := h.has.samples x hx
    have hf : (t.features x.q x.u).getD (k1.map fun o => o.dim r m).sum 0 = 1 := by
      have hl : (dataVector k1 x.q (x.u.getD [])).length = (k1.map fun o => o.dim r m).sum :=
        dataVector_length k1 h1 fun o ho => toInfer_ok h3 o (by rw [hk]; exact mem_append_left _ ho)
      rw [Training.features, hk, show dataVector (k1 ++ OpKind.const :: k2) x.q (x.u.getD []) =
        dataVector k1 x.q (x.u.getD []) ++ (1 :: dataVector k2 x.q (x.u.getD [])) by
          simp [dataVector, OpKind.dataCol]]
      rw [← hl]
      simp
    rw [hf, mul_one, Training.gap, getD_vsub _ _ (by rw [h2, (h.has.value hx).2.2.1])]
  rw [e] at key
  have hs : ∀ l : List (TrainSample K), (l.map fun x => x.z.getD i 0 - (t.after.value x.q x.u).getD i 0).sum =
      (l.map fun x => x.z.getD i 0).sum - (l.map fun x => (t.after.value x.q x.u).getD i 0).sum := by
    intro l
    induction l with
    | nil => simp
    | cons a l ih => simp only [map_cons, sum_cons, ih]; ring
  rw [hs] at key
  exact sub_eq_zero.1 key

/-- The output of the learned operators. -/
def Training.learnedPart {S : Type} (t : Training K S) (O : Mat K) (x : TrainSample K) : List K :=
  matVec O.rows (t.features x.q x.u)

omit [LinearOrder K] [IsStrictOrderedRing K] in
theorem sumSq_split (z p w : List K) (hp : p.length = z.length) (hw : w.length = z.length) :
    sumSq (vsub z w) = sumSq (vsub z (vadd p w)) + sumSq p + 2 * dot (vsub z (vadd p w)) p := by
  induction z generalizing p w with
  | nil =>
    simp only [length_nil, length_eq_zero_iff] at hp hw
    subst hp hw
    simp [sumSq, vsub, dot]
  | cons z zs ih =>
    cases p with
    | nil => simp at hp
    | cons p ps =>
      cases w with
      | nil => simp at hw
      | cons w ws =>
        have := ih ps ws (by simpa using hp) (by simpa using hw)
        simp only [sumSq, vsub, vadd, dot, zipWith_cons_cons, map_cons, sum_cons] at this ⊢
        linear_combination this

/-- **C116** (energy). The energy of the left-hand side (without the known operators) is the energy of the residuals plus
the energy of the learned part plus twice the penalty. In particular training never makes the residual larger than that of
a model that learns nothing. -/
theorem C116_energy {S : Type} {t : Training K S} {r m : Nat} {B : List K → List K → K} {O : Mat K} (h : t.Fitted r m B O) :
    (t.samples.map fun x => sumSq (vsub x.z (t.before.knownPart.value x.q x.u))).sum =
        (t.samples.map fun x => sumSq (t.gap x)).sum + (t.samples.map fun x => sumSq (t.learnedPart O x)).sum +
          2 * (O.rows.map fun a => B a a).sum ∧
      (t.samples.map fun x => sumSq (t.gap x)).sum ≤
        (t.samples.map fun x => sumSq (vsub x.z (t.before.knownPart.value x.q x.u))).sum := by
  have key := h.orthogonal O h.has.wf h.has.nrows h.has.ncols
  have e1 : ∀ l : List (TrainSample K), (∀ x ∈ l, x ∈ t.samples) →
      (l.map fun x => sumSq (vsub x.z (t.before.knownPart.value x.q x.u))).sum =
        (l.map fun x => sumSq (t.gap x)).sum + (l.map fun x => sumSq (t.learnedPart O x)).sum +
          2 * (l.map fun x => dot (t.gap x) (matVec O.rows (t.features x.q x.u))).sum := by
    intro l hl
    induction l with
    | nil => simp
    | cons x l ih =>
      have i1 := ih fun y hy => hl y (mem_cons_of_mem _ hy)
      have hx := hl x mem_cons_self
      obtain ⟨h1, h2, h3⟩ := h.has.samples x hx
      obtain ⟨h4, h5⟩ := h.has.output x.q x.u h1 h3
      have i2 := sumSq_split x.z (matVec O.rows (t.features x.q x.u)) (t.before.knownPart.value x.q x.u)
        (by rw [length_matVec, h.has.wf.1, h.has.nrows, h2]) (by rw [h5, h2])
      simp only [map_cons, sum_cons, Training.gap, Training.learnedPart, (h.has.value hx).2.1] at i1 ⊢
      linear_combination i1 + i2
  have e2 : (zipWith B O.rows O.rows).sum = (O.rows.map fun a => B a a).sum := by
    congr 1
    exact zipWith_self
  have e3 := e1 t.samples fun _ hx => hx
  rw [key, e2] at e3
  refine ⟨e3, ?_⟩
  have h2 : 0 ≤ (t.samples.map fun x => sumSq (t.learnedPart O x)).sum := List.sum_nonneg fun y hy => by
    obtain ⟨x, -, rfl⟩ := mem_map.1 hy
    exact sumSq_nonneg _
  have h3 : 0 ≤ (O.rows.map fun a => B a a).sum := List.sum_nonneg fun y hy => by
    obtain ⟨x, -, rfl⟩ := mem_map.1 hy
    exact h.pairing.nonneg _
  linarith

/-- **C116** (converse). The orthogonality determines the result: a matrix `P` of the same shape whose residuals satisfy the
same equations has the same output as the trained model at all samples, and it is the operator matrix if the penalty
vanishes only at zero or the data determine the operators. -/
theorem C116_determined {S : Type} {t : Training K S} {r m : Nat} {B : List K → List K → K} {O : Mat K} (h : t.Fitted r m B O)
    (P : Mat K) (hP : P.WF) (hr : P.nrows = r) (hd : P.ncols = t.width r m)
    (ho : ∀ H : Mat K, H.WF → H.nrows = r → H.ncols = t.width r m →
      (t.samples.map fun x => dot (vsub x.z (vadd (matVec P.rows (t.features x.q x.u)) (t.before.knownPart.value x.q x.u)))
        (matVec H.rows (t.features x.q x.u))).sum = (zipWith B P.rows H.rows).sum) :
    (∀ x ∈ t.samples, matVec P.rows (t.features x.q x.u) = matVec O.rows (t.features x.q x.u)) ∧
      ((∀ v : List K, v.length = t.width r m → B v v = 0 → ∀ y ∈ v, y = 0) ∨ t.Decided r m → P = O) := by
  obtain ⟨hl, hrw⟩ := h.has.wf
  rw [h.has.nrows] at hl
  rw [h.has.ncols] at hrw
  obtain ⟨hl', hrw'⟩ := hP
  rw [hr] at hl'
  rw [hd] at hrw'
  have hz : ∀ x ∈ t.samples, x.z.length = r := fun x hx => (h.has.samples x hx).2.1
  have hw : ∀ x ∈ t.samples, (t.before.knownPart.value x.q x.u).length = r := fun x hx =>
    (h.has.output x.q x.u (h.has.samples x hx).1 (h.has.samples x hx).2.2).2
  have mO := (minimal_iff h.pairing t.samples (fun x => t.before.knownPart.value x.q x.u) t.before.toInfer hz hw O.rows hl hrw).2
    (fun H hH hHr => by
      have := h.orthogonal ⟨r, t.width r m, H⟩ ⟨hH, hHr⟩ rfl rfl
      rw [← this]
      refine congrArg List.sum (map_congr_left fun x hx => ?_)
      rw [Training.gap, (h.has.value hx).2.1]
      rfl)
  have mP := (minimal_iff h.pairing t.samples (fun x => t.before.knownPart.value x.q x.u) t.before.toInfer hz hw P.rows hl'
    hrw').2 (fun H hH hHr => ho ⟨r, t.width r m, H⟩ ⟨hH, hHr⟩ rfl rfl)
  have hQ : Quadratic (t.width r m) fun a : List K => B a a := by
    refine ⟨h.pairing.nonneg, fun a b ha hb => ?_⟩
    have e1 : middle a b = vadd (vsmul (1 / 2) a) (vsmul (1 / 2) b) := by
      have hab : a.length = b.length := by rw [ha, hb]
      clear * - hab
      induction a generalizing b with
      | nil => cases b <;> simp_all [middle, vadd, vsmul]
      | cons x a ih =>
        cases b with
        | nil => simp at hab
        | cons y b =>
          have := ih b (by simpa using hab)
          simp only [middle, vadd, vsmul, zipWith_cons_cons, map_cons] at this ⊢
          rw [this]
          congr 1
          ring
    have e2 : vsub a b = vadd (vsmul 1 a) (vsmul (-1) b) := by
      have hab : a.length = b.length := by rw [ha, hb]
      clear * - hab
      induction a generalizing b with
      | nil => cases b <;> simp_all [vsub, vadd, vsmul]
      | cons x a ih =>
        cases b with
        | nil => simp at hab
        | cons y b =>
          have := ih b (by simpa using hab)
          simp only [vsub, vadd, vsmul, zipWith_cons_cons, map_cons] at this ⊢
          rw [this]
          congr 1
          ring
    have e3 : ∀ c d : K, B (vadd (vsmul c a) (vsmul d b)) (vadd (vsmul c a) (vsmul d b)) =
        c ^ 2 * B a a + 2 * c * d * B a b + d ^ 2 * B b b := by
      intro c d
      have hl : (vadd (vsmul c a) (vsmul d b)).length = t.width r m := by simp [vadd, vsmul, ha, hb]
      rw [h.pairing.linear a b _ c d ha hb hl, h.pairing.symm a, h.pairing.symm b, h.pairing.linear a b a c d ha hb ha,
        h.pairing.linear a b b c d ha hb hb, h.pairing.symm b a]
      ring
    show B a a + B b b = 2 * B (middle a b) (middle a b) + 1 / 2 * B (vsub a b) (vsub a b)
    rw [e1, e2, e3, e3]
    ring
  obtain ⟨s1, s2⟩ := minimisers_agree hQ t.samples (fun x => t.before.knownPart.value x.q x.u) t.before.toInfer hz hw P.rows
    O.rows hl' hl hrw' hrw mP (mO P.rows hl' hrw')
  refine ⟨s1, fun hdec => ?_⟩
  have hrows : P.rows = O.rows := by
    refine ext_getElem (by rw [hl, hl']) fun i h1 h2 => ?_
    have hi : i < r := by rw [← hl]; exact h2
    refine vsub_zero_mem (by rw [hrw' _ (getElem_mem h1), hrw _ (getElem_mem h2)]) ?_
    have hlen : (vsub P.rows[i] O.rows[i]).length = t.width r m := by
      rw [length_vsub, hrw' _ (getElem_mem h1), hrw _ (getElem_mem h2), min_self]
    rcases hdec with hdef | hdet
    · have := s2 i hi
      rw [Opinf.getD_eq_getElem P.rows [] h1, Opinf.getD_eq_getElem O.rows [] h2] at this
      exact hdef _ hlen this
    · refine hdet _ hlen fun x hx => ?_
      have e := congrArg (fun l => l.getD i 0) (s1 x hx)
      simp only [getD_matVec] at e
      rw [Opinf.getD_eq_getElem P.rows [] h1, Opinf.getD_eq_getElem O.rows [] h2] at e
      rw [dot_vsub_left _ _ _ (by rw [hrw' _ (getElem_mem h1), hrw _ (getElem_mem h2)]), e, sub_self]
  have hn := h.has.nrows
  have hc := h.has.ncols
  cases P
  cases O
  simp_all

end

/-! ### Examples -/

/-- A least-squares routine for problems with the states 0, 1, 2 and a constant and a linear operator. -/
def resLs (A B : Mat ℚ) : Except Err (Mat ℚ) :=
  match B with
  | ⟨3, 1, [[a], [b], [c]]⟩ =>
    if A = ⟨3, 2, [[1, 0], [1, 1], [1, 2]]⟩ then
      .ok ⟨2, 1, [[(a + b + c) / 3 - (c - a) / 2], [(c - a) / 2]]⟩
    else .error .linalg
  | _ => .error .linalg

theorem resLs_spec (A B X : Mat ℚ) (h : resLs A B = .ok X) : IsLstsq A B X := by
  unfold resLs at h
  split at h
  · rename_i a b c
    split at h
    · rename_i hc
      subst hc
      injection h with h
      subst h
      refine ⟨⟨rfl, by simp⟩, rfl, rfl, ?_⟩
      intro j hj
      obtain rfl : j = 0 := by simp at hj; exact hj
      refine ⟨rfl, fun o' ho => ?_⟩
      obtain ⟨x, y, rfl⟩ : ∃ x y, o' = [x, y] := by
        match o', ho with
        | [x, y], _ => exact ⟨x, y, rfl⟩
      simp only [sumSq, vsub, matVec, dot, col, map_cons, map_nil, zipWith_cons_cons, zipWith_nil_right, sum_cons, sum_nil,
        getD_cons_zero, zipWith_nil_left]
      obtain ⟨p, hp⟩ : ∃ p, p = x - ((a + b + c) / 3 - (c - a) / 2) := ⟨_, rfl⟩
      obtain ⟨q, hq⟩ : ∃ q, q = y - (c - a) / 2 := ⟨_, rfl⟩
      obtain rfl : x = p + ((a + b + c) / 3 - (c - a) / 2) := by rw [hp]; ring
      obtain rfl : y = q + (c - a) / 2 := by rw [hq]; ring
      have := add_nonneg (add_nonneg (sq_nonneg p) (sq_nonneg (p + q))) (sq_nonneg (p + 2 * q))
      nlinarith
    · cases h
  · cases h

/-- The states 0, 1, 2 with the left-hand side `z`. -/
def resT (a b c : ℚ) : Training ℚ (Plain ℚ) where
  before := ordModel .const .lin
  states := .mat 1 [[0], [1], [2]]
  lhs := .mat 1 [[a], [b], [c]]
  inputs := none
  after := ((ordModel .const .lin).fit (plainSolver resLs) (.mat 1 [[0], [1], [2]]) (.mat 1 [[a], [b], [c]]) none).1

theorem resT_done : (resT 0 4 2).Done (plainSolver resLs) 1 0 :=
  ⟨ordModel_inv _ _, rfl, by unfold Arg.WF; decide +kernel, by unfold Arg.WF; decide +kernel, (fun a h => by cases h), rfl,
    by omega, (fun a h => by cases h),
    Prod.ext rfl (by
      change ((ordModel .const .lin).fit (plainSolver resLs) (.mat 1 [[0], [1], [2]]) (.mat 1 [[0], [4], [2]]) none).2 = _
      decide +kernel)⟩

-- the hypotheses of `C116_plain`, `C116_mean` and `C116_energy` hold for data that do not fit exactly
example : ((resT 0 4 2).samples.map fun x => x.z.getD 0 0).sum =
    ((resT 0 4 2).samples.map fun x => ((resT 0 4 2).after.value x.q x.u).getD 0 0).sum := by
  obtain ⟨O, hO⟩ := C116_plain resLs resLs_spec (resT 0 4 2) 1 0 resT_done
  exact C116_mean hO (by decide) (by decide)

-- the learned operators, the residuals, and their products with the states
example : (resT 0 4 2).after.ops = [⟨.const, some ⟨1, 1, [[1]]⟩⟩, ⟨.lin, some ⟨1, 1, [[1]]⟩⟩] ∧
    (resT 0 4 2).samples.map (resT 0 4 2).gap = [[-1], [2], [-1]] ∧
    ((resT 0 4 2).samples.map fun x => ((resT 0 4 2).gap x).getD 0 0 * x.q.getD 0 0) = [0, 2, -2] := by
  refine ⟨?_, ?_, ?_⟩ <;> decide +kernel

end Opinf
