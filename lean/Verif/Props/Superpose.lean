import Verif.Props.Residuals

/-!
# C117: training is linear in the left-hand side

Specification: linear combinations of left-hand sides, operator matrices and right-hand sides.
-/

namespace Opinf

open List

variable {K : Type}

/-- `c a + d b`. -/
def lin2 [Add K] [Mul K] (c : K) (a : List K) (d : K) (b : List K) : List K := vadd (vsmul c a) (vsmul d b)

/-- `c A + d B`. -/
def Mat.lin2 [Add K] [Mul K] (c : K) (A : Mat K) (d : K) (B : Mat K) : Mat K :=
  ⟨A.nrows, A.ncols, zipWith (fun a b => Opinf.lin2 c a d b) A.rows B.rows⟩

/-- Three trainings of the same model with the same states and inputs, the third left-hand side being `c` times the first
plus `d` times the second. -/
structure Superposed [Field K] {S : Type} (c d : K) (t1 t2 t3 : Training K S) : Prop where
  before2 : t2.before = t1.before
  before3 : t3.before = t1.before
  states2 : t2.states = t1.states
  states3 : t3.states = t1.states
  inputs2 : t2.inputs = t1.inputs
  inputs3 : t3.inputs = t1.inputs
  lhs : ∀ j : Nat, j < (atleast2d t1.states).2.length → (atleast2d t3.lhs).2.getD j [] =
    lin2 c ((atleast2d t1.lhs).2.getD j []) d ((atleast2d t2.lhs).2.getD j [])

/-- The coefficients suit the known operators: their contribution is subtracted from each left-hand side, so it must be
absent or combine to itself. -/
def SuitsKnown [Field K] {S : Type} (c d : K) (M : Model K S) : Prop := c + d = 1 ∨ ∀ s ∈ M.slots, s.infer = true

/-- The third trained model is the linear combination of the first two. -/
structure Combines [Field K] {S : Type} (c d : K) (t1 t2 t3 : Training K S) (m : Nat) (decisive : Prop) : Prop where
  onSamples : ∀ x ∈ t1.samples, ∃ y1 y2, t1.after.rhs x.q x.u = .ok y1 ∧ t2.after.rhs x.q x.u = .ok y2 ∧
    t3.after.rhs x.q x.u = .ok (lin2 c y1 d y2)
  matrix : decisive → ∃ O1 O2, t1.after.operatorMatrix = .ok O1 ∧ t2.after.operatorMatrix = .ok O2 ∧
    t3.after.operatorMatrix = .ok (Mat.lin2 c O1 d O2)
  everywhere : decisive → ∀ q u, q.length = (atleast2d t1.states).1 → (∀ o ∈ t1.before.ops, InputOK o.kind m u) →
    ∃ y1 y2, t1.after.rhs q u = .ok y1 ∧ t2.after.rhs q u = .ok y2 ∧ t3.after.rhs q u = .ok (lin2 c y1 d y2)

section

variable [Field K]

theorem matVec_lin2 {n : Nat} (A B : List (List K)) (c d : K) (v : List K) (hA : ∀ a ∈ A, a.length = n)
    (hB : ∀ a ∈ B, a.length = n) :
    matVec (zipWith (fun a b => lin2 c a d b) A B) v = lin2 c (matVec A v) d (matVec B v) := by
  induction A generalizing B with
  | nil => rfl
  | cons a A ih =>
    cases B with
    | nil => simp [matVec, lin2, vadd, vsmul]
    | cons b B =>
      have := ih B (fun x hx => hA x (mem_cons_of_mem _ hx)) fun x hx => hB x (mem_cons_of_mem _ hx)
      simp only [matVec, lin2, vadd, vsmul, zipWith_cons_cons, map_cons] at this ⊢
      rw [this]
      congr 1
      have h1 := dot_vadd_left (vsmul c a) (vsmul d b) v (by
        simp [vsmul, hA a mem_cons_self, hB b mem_cons_self])
      rw [dot_vsmul_left, dot_vsmul_left] at h1
      exact h1

/-- Residuals combine. -/
theorem dot_gap_lin2 (z1 z2 p1 p2 w h : List K) (c d : K) (hz2 : z2.length = z1.length) (hp1 : p1.length = z1.length)
    (hp2 : p2.length = z1.length) (hw : w.length = z1.length) (hc : c + d = 1 ∨ ∀ y ∈ w, y = 0) :
    dot (vsub (lin2 c z1 d z2) (vadd (lin2 c p1 d p2) w)) h =
      c * dot (vsub z1 (vadd p1 w)) h + d * dot (vsub z2 (vadd p2 w)) h := by
  induction z1 generalizing z2 p1 p2 w h with
  | nil => simp [dot, vsub, lin2, vadd, vsmul, length_eq_zero_iff.1 hz2]
  | cons z1 zs ih =>
    match z2, p1, p2, w, hz2, hp1, hp2, hw with
    | z2 :: z2s, p1 :: p1s, p2 :: p2s, w :: ws, hz2, hp1, hp2, hw =>
      cases h with
      | nil => simp [dot]
      | cons h hs =>
        have := ih z2s p1s p2s ws hs (by simpa using hz2) (by simpa using hp1) (by simpa using hp2) (by simpa using hw)
          (hc.imp_right fun hc y hy => hc y (mem_cons_of_mem _ hy))
        have hcw : w = (c + d) * w := by
          rcases hc with hc | hc
          · rw [hc, one_mul]
          · rw [hc w mem_cons_self, mul_zero]
        simp only [dot, vsub, lin2, vadd, vsmul, zipWith_cons_cons, map_cons, sum_cons] at this ⊢
        linear_combination this + h * (-hcw)

theorem vadd_lin2 (p1 p2 w : List K) (c d : K) (hp2 : p2.length = p1.length) (hw : w.length = p1.length)
    (hc : c + d = 1 ∨ ∀ y ∈ w, y = 0) :
    vadd (lin2 c p1 d p2) w = lin2 c (vadd p1 w) d (vadd p2 w) := by
  induction p1 generalizing p2 w with
  | nil => simp [lin2, vadd, vsmul]
  | cons p1 ps ih =>
    match p2, w, hp2, hw with
    | p2 :: p2s, w :: ws, hp2, hw =>
      have := ih p2s ws (by simpa using hp2) (by simpa using hw)
        (hc.imp_right fun hc y hy => hc y (mem_cons_of_mem _ hy))
      have hcw : w = (c + d) * w := by
        rcases hc with hc | hc
        · rw [hc, one_mul]
        · rw [hc w mem_cons_self, mul_zero]
      simp only [lin2, vadd, vsmul, zipWith_cons_cons, map_cons] at this ⊢
      rw [this]
      congr 1
      linear_combination hcw

theorem length_lin2 {n : Nat} {a b : List K} (c d : K) (ha : a.length = n) (hb : b.length = n) :
    (lin2 c a d b).length = n := by simp [lin2, vadd, vsmul, ha, hb]

theorem known_zero {S : Type} {M : Model K S} {c d : K} (h : SuitsKnown c d M) (q : List K) (u : Option (List K)) :
    c + d = 1 ∨ ∀ y ∈ M.knownPart.value q u, y = 0 := by
  refine h.imp_right fun h => ?_
  have h0 : M.knownPart.slots = [] := by
    simp only [Model.knownPart, filter_eq_nil_iff]
    intro s hs
    simp [h s hs]
  have hops : M.knownPart.ops = [] := by rw [Model.ops, h0]; rfl
  intro y hy
  rw [Model.value] at hy
  split at hy
  · rename_i v hv
    obtain ⟨ts, h1, h2⟩ := (rhs_terms _ _ _ _).1 hv
    rw [hops] at h1
    cases h1
    rw [h2] at hy
    exact (mem_replicate.1 hy).2
  · cases hy

variable [LinearOrder K] [IsStrictOrderedRing K]

theorem combine_core {S : Type} {c d : K} {t1 t2 t3 : Training K S} (hs : Superposed c d t1 t2 t3)
    (hk : SuitsKnown c d t1.before) {r m : Nat} (hr : (atleast2d t1.states).1 = r) {B : List K → List K → K}
    {O1 O2 O3 : Mat K} (h1 : t1.Fitted r m B O1) (h2 : t2.Fitted r m B O2) (h3 : t3.Fitted r m B O3) :
    Combines c d t1 t2 t3 m ((∀ v : List K, v.length = t1.width r m → B v v = 0 → ∀ y ∈ v, y = 0) ∨ t1.Decided r m) := by
  obtain ⟨b2, b3, e2, e3, i2, i3, hl⟩ := hs
  have hw2 : t2.width r m = t1.width r m := by rw [Training.width, b2]; rfl
  have hw3 : t3.width r m = t1.width r m := by rw [Training.width, b3]; rfl
  have hf2 : ∀ q u, t2.features q u = t1.features q u := fun q u => by rw [Training.features, b2]; rfl
  have hf3 : ∀ q u, t3.features q u = t1.features q u := fun q u => by rw [Training.features, b3]; rfl
  obtain ⟨n, hn⟩ : ∃ n, n = (atleast2d t1.states).2.length := ⟨_, rfl⟩
  obtain ⟨sq, hsq⟩ : ∃ f : Nat → List K, f = fun j => (atleast2d t1.states).2.getD j [] := ⟨_, rfl⟩
  obtain ⟨su, hsu⟩ : ∃ f : Nat → Option (List K), f = fun j => inputAt t1.inputs j := ⟨_, rfl⟩
  obtain ⟨z1, hz1⟩ : ∃ f : Nat → List K, f = fun j => (atleast2d t1.lhs).2.getD j [] := ⟨_, rfl⟩
  obtain ⟨z2, hz2⟩ : ∃ f : Nat → List K, f = fun j => (atleast2d t2.lhs).2.getD j [] := ⟨_, rfl⟩
  have s1 : t1.samples = (range n).map fun j => ⟨sq j, z1 j, su j⟩ := by
    rw [Training.samples, argSamples, hn, hsq, hsu, hz1]
  have s2 : t2.samples = (range n).map fun j => ⟨sq j, z2 j, su j⟩ := by
    rw [Training.samples, argSamples, e2, i2, hn, hsq, hsu, hz2]
  have s3 : t3.samples = (range n).map fun j => ⟨sq j, lin2 c (z1 j) d (z2 j), su j⟩ := by
    rw [Training.samples, argSamples, e3, i3, hn, hsq, hsu, hz2, hz1]
    refine map_congr_left fun j hj => ?_
    rw [hl j (mem_range.1 hj)]
  have m1 : ∀ j ∈ range n, (⟨sq j, z1 j, su j⟩ : TrainSample K) ∈ t1.samples := fun j hj => by
    rw [s1]; exact mem_map.2 ⟨j, hj, rfl⟩
  have m2 : ∀ j ∈ range n, (⟨sq j, z2 j, su j⟩ : TrainSample K) ∈ t2.samples := fun j hj => by
    rw [s2]; exact mem_map.2 ⟨j, hj, rfl⟩
  have m3 : ∀ j ∈ range n, (⟨sq j, lin2 c (z1 j) d (z2 j), su j⟩ : TrainSample K) ∈ t3.samples := fun j hj => by
    rw [s3]; exact mem_map.2 ⟨j, hj, rfl⟩
  have r1 : O1.rows.length = r := by rw [h1.has.wf.1, h1.has.nrows]
  have r2 : O2.rows.length = r := by rw [h2.has.wf.1, h2.has.nrows]
  have c1 : ∀ a ∈ O1.rows, a.length = t1.width r m := fun a ha => by rw [h1.has.wf.2 a ha, h1.has.ncols]
  have c2 : ∀ a ∈ O2.rows, a.length = t1.width r m := fun a ha => by rw [h2.has.wf.2 a ha, h2.has.ncols, hw2]
  have pv : ∀ v, matVec (Mat.lin2 c O1 d O2).rows v = lin2 c (matVec O1.rows v) d (matVec O2.rows v) := fun v =>
    matVec_lin2 _ _ c d v c1 c2
  obtain ⟨P, hP⟩ : ∃ P, P = Mat.lin2 c O1 d O2 := ⟨_, rfl⟩
  rw [← hP] at pv
  have pwf : P.WF := by
    subst hP
    refine ⟨by simp [Mat.lin2, r1, r2, h1.has.nrows], fun a ha => ?_⟩
    simp only [Mat.lin2] at ha ⊢
    rw [h1.has.ncols]
    obtain ⟨k, hk, rfl⟩ := getElem_of_mem ha
    rw [getElem_zipWith]
    exact length_lin2 c d (c1 _ (getElem_mem _)) (c2 _ (getElem_mem _))
  have pn : P.nrows = r := by rw [hP]; exact h1.has.nrows
  have pc : P.ncols = t1.width r m := by rw [hP]; exact h1.has.ncols
  obtain ⟨d1, d2⟩ := C116_determined h3 P pwf pn (by rw [pc, hw3]) (fun H hH g1 g2 => by
    rw [hw3] at g2
    have o1 := h1.orthogonal H hH g1 g2
    have o2 := h2.orthogonal H hH g1 (by rw [g2, hw2])
    rw [s1, map_map] at o1
    rw [s2, map_map] at o2
    rw [s3, map_map]
    have e : (zipWith B P.rows H.rows).sum = c * (zipWith B O1.rows H.rows).sum + d * (zipWith B O2.rows H.rows).sum := by
      have hr' : H.rows.length = r := by rw [hH.1, g1]
      have hc' : ∀ a ∈ H.rows, a.length = t1.width r m := fun a ha => by rw [hH.2 a ha, g2]
      have hB := h1.pairing
      rw [hP]
      simp only [Mat.lin2]
      generalize O1.rows = A1 at r1 c1
      generalize O2.rows = A2 at r2 c2
      generalize H.rows = A3 at hr' hc'
      rw [← r1] at r2 hr'
      clear * - r2 c1 c2 hr' hc' hB
      induction A1 generalizing A2 A3 with
      | nil => cases A2 <;> simp_all
      | cons a A1 ih =>
        match A2, A3, r2, hr' with
        | b :: A2, h :: A3, r2, hr' =>
          have i1 := ih (fun x hx => c1 x (mem_cons_of_mem _ hx)) A2 (by simpa using r2) (fun x hx => c2 x (mem_cons_of_mem _ hx)) A3
            (by simpa using hr') (fun x hx => hc' x (mem_cons_of_mem _ hx))
          have i2 := hB.linear a b h c d (c1 a mem_cons_self) (c2 b mem_cons_self) (hc' h mem_cons_self)
          simp only [zipWith_cons_cons, sum_cons]
          rw [i1, show B (lin2 c a d b) h = _ from i2]
          ring
    rw [e, ← o1, ← o2, ← sum_map_mul_left, ← sum_map_mul_left, ← sum_map_add]
    refine congrArg List.sum (map_congr_left fun j hj => ?_)
    have a1 := h1.has.samples _ (m1 j hj)
    have a2 := h2.has.samples _ (m2 j hj)
    have k1 := (h1.has.output _ _ a1.1 a1.2.2).2
    simp only at a1 a2 k1
    simp only [Function.comp_apply, Training.gap, (h1.has.value (m1 j hj)).2.1, (h2.has.value (m2 j hj)).2.1, hf2, hf3, b2,
      b3, pv]
    exact dot_gap_lin2 _ _ _ _ _ _ c d (by rw [a1.2.1, a2.2.1]) (by rw [length_matVec, r1, a1.2.1])
      (by rw [length_matVec, r2, a1.2.1]) (by rw [k1, a1.2.1]) (known_zero hk _ _))
  have out : ∀ q u, q.length = r → (∀ o ∈ t1.before.ops, InputOK o.kind m u) →
      matVec P.rows (t1.features q u) = matVec O3.rows (t1.features q u) →
      ∃ y1 y2, t1.after.rhs q u = .ok y1 ∧ t2.after.rhs q u = .ok y2 ∧ t3.after.rhs q u = .ok (lin2 c y1 d y2) := by
    intro q u hq hu he
    obtain ⟨f1, f1'⟩ := h1.has.output q u hq hu
    obtain ⟨f2, -⟩ := h2.has.output q u hq (by rw [b2]; exact hu)
    obtain ⟨f3, -⟩ := h3.has.output q u hq (by rw [b3]; exact hu)
    refine ⟨_, _, f1, f2, ?_⟩
    rw [f3, hf3, ← he, pv, b3, b2, hf2]
    congr 1
    exact vadd_lin2 _ _ _ c d (by rw [length_matVec, length_matVec, r1, r2]) (by rw [f1', length_matVec, r1])
      (known_zero hk _ _)
  have dec : ((∀ v : List K, v.length = t1.width r m → B v v = 0 → ∀ y ∈ v, y = 0) ∨ t1.Decided r m) → P = O3 := by
    intro h
    refine d2 (h.imp (fun h => by rw [hw3]; exact h) fun h v hv hx => ?_)
    rw [b3] at hv
    refine h v hv fun x hx' => ?_
    rw [s1] at hx'
    obtain ⟨j, hj, rfl⟩ := mem_map.1 hx'
    have := hx _ (m3 j hj)
    rw [b3] at this
    exact this
  refine ⟨fun x hx => ?_, fun h => ⟨O1, O2, h1.has.opMatrix, h2.has.opMatrix, ?_⟩, fun h q u hq hu =>
    out q u (by rw [hq, hr]) hu (by rw [dec h])⟩
  · have a1 := h1.has.samples x hx
    rw [s1] at hx
    obtain ⟨j, hj, rfl⟩ := mem_map.1 hx
    refine out _ _ a1.1 a1.2.2 ?_
    have := d1 _ (m3 j hj)
    rw [hf3] at this
    exact this
  · rw [h3.has.opMatrix, ← dec h, hP]

/-! ### Property theorems -/

/-- **C117** (`PlainSolver`). Training without regularization is linear in the left-hand side. -/
theorem C117_plain (lstsq : Mat K → Mat K → Except Err (Mat K)) (hls : ∀ A B X, lstsq A B = .ok X → IsLstsq A B X)
    (t1 t2 t3 : Training K (Plain K)) (r m : Nat) (h1 : t1.Done (plainSolver lstsq) r m)
    (h2 : t2.Done (plainSolver lstsq) r m) (h3 : t3.Done (plainSolver lstsq) r m) (c d : K)
    (hs : Superposed c d t1 t2 t3) (hk : SuitsKnown c d t1.before) :
    Combines c d t1 t2 t3 m (t1.Decided r m) := by
  obtain ⟨O1, f1⟩ := C116_plain lstsq hls t1 r m h1
  obtain ⟨O2, f2⟩ := C116_plain lstsq hls t2 r m h2
  obtain ⟨O3, f3⟩ := C116_plain lstsq hls t3 r m h3
  obtain ⟨g1, g2, g3⟩ := combine_core hs hk h1.dim f1 f2 f3
  exact ⟨g1, fun h => g2 (.inr h), fun h => g3 (.inr h)⟩

/-- **C117** (`L2Solver`). So is training with a regularizer, and it determines the operators if it is not zero. -/
theorem C117_l2 (svd : Mat K → Except Err (Svd K)) (hsvd : ∀ D u, svd D = .ok u → IsSVD D u)
    (t1 t2 t3 : Training K (L2 K K)) (r m : Nat) (h1 : t1.Done (l2Solver svd) r m) (h2 : t2.Done (l2Solver svd) r m)
    (h3 : t3.Done (l2Solver svd) r m) (lam : K) (hlam : ∀ s ∈ t1.before.solver, s.reg = some lam) (c d : K)
    (hs : Superposed c d t1 t2 t3) (hk : SuitsKnown c d t1.before) :
    Combines c d t1 t2 t3 m (lam ≠ 0 ∨ t1.Decided r m) := by
  obtain ⟨O1, f1⟩ := C116_l2 svd hsvd t1 r m lam h1 hlam
  obtain ⟨O2, f2⟩ := C116_l2 svd hsvd t2 r m lam h2 (by rw [hs.before2]; exact hlam)
  obtain ⟨O3, f3⟩ := C116_l2 svd hsvd t3 r m lam h3 (by rw [hs.before3]; exact hlam)
  obtain ⟨g1, g2, g3⟩ := combine_core hs hk h1.dim f1 f2 f3
  have key : lam ≠ 0 ∨ t1.Decided r m →
      (∀ v : List K, v.length = t1.width r m → lam ^ 2 * dot v v = 0 → ∀ y ∈ v, y = 0) ∨ t1.Decided r m :=
    fun h => h.imp_left fun h v _ h0 => by
      have := (mul_eq_zero.1 h0).resolve_left (pow_ne_zero 2 h)
      rw [← sumSq_eq_dot] at this
      rw [sumSq_eq_zero _ this]
      exact fun y hy => (mem_replicate.1 hy).2
  exact ⟨g1, fun h => g2 (key h), fun h => g3 (key h)⟩

/-- **C117** (`TikhonovSolver`). The same with a regularization matrix. -/
theorem C117_tikhonov (lstsq posSolve : Mat K → Mat K → Except Err (Mat K))
    (hls : ∀ A B X, lstsq A B = .ok X → IsLstsq A B X)
    (hps : ∀ A B X, A.nrows = B.nrows → A.nrows = A.ncols → posSolve A B = .ok X → IsSolution A B X)
    (t1 t2 t3 : Training K (Tik (Mat K) K)) (r m : Nat) (h1 : t1.Done (tikSolver lstsq posSolve) r m)
    (h2 : t2.Done (tikSolver lstsq posSolve) r m) (h3 : t3.Done (tikSolver lstsq posSolve) r m) (G : Mat K) (hG : G.WF)
    (hreg : ∀ s ∈ t1.before.solver, s.reg = some G) (c d : K) (hs : Superposed c d t1 t2 t3)
    (hk : SuitsKnown c d t1.before) :
    Combines c d t1 t2 t3 m
      ((∀ v : List K, v.length = t1.width r m → (∀ y ∈ matVec G.rows v, y = 0) → ∀ y ∈ v, y = 0) ∨ t1.Decided r m) := by
  obtain ⟨O1, f1⟩ := C116_tikhonov lstsq posSolve hls hps t1 r m h1 G hG hreg
  obtain ⟨O2, f2⟩ := C116_tikhonov lstsq posSolve hls hps t2 r m h2 G hG (by rw [hs.before2]; exact hreg)
  obtain ⟨O3, f3⟩ := C116_tikhonov lstsq posSolve hls hps t3 r m h3 G hG (by rw [hs.before3]; exact hreg)
  obtain ⟨g1, g2, g3⟩ := combine_core hs hk h1.dim f1 f2 f3
  have key : (∀ v : List K, v.length = t1.width r m → (∀ y ∈ matVec G.rows v, y = 0) → ∀ y ∈ v, y = 0) ∨ t1.Decided r m →
      (∀ v : List K, v.length = t1.width r m → dot (matVec G.rows v) (matVec G.rows v) = 0 → ∀ y ∈ v, y = 0) ∨
        t1.Decided r m :=
    fun h => h.imp_left fun h v hv h0 => h v hv (by
      rw [← sumSq_eq_dot] at h0
      rw [sumSq_eq_zero _ h0]
      exact fun y hy => (mem_replicate.1 hy).2)
  exact ⟨g1, fun h => g2 (key h), fun h => g3 (key h)⟩

/-- **C117** (units of time). If all operators are learned and the left-hand sides are multiplied by `c`, then so are the
right-hand side of the model and, if the data determine the operators, all entries of its operator matrix. -/
theorem C117_time_unit (lstsq : Mat K → Mat K → Except Err (Mat K)) (hls : ∀ A B X, lstsq A B = .ok X → IsLstsq A B X)
    (t t' : Training K (Plain K)) (r m : Nat) (h : t.Done (plainSolver lstsq) r m) (h' : t'.Done (plainSolver lstsq) r m)
    (c : K) (hb : t'.before = t.before) (hst : t'.states = t.states) (hin : t'.inputs = t.inputs)
    (hl : ∀ j : Nat, j < (atleast2d t.states).2.length →
      (atleast2d t'.lhs).2.getD j [] = vsmul c ((atleast2d t.lhs).2.getD j []))
    (hk : ∀ s ∈ t.before.slots, s.infer = true) :
    (∀ x ∈ t.samples, ∃ y, t.after.rhs x.q x.u = .ok y ∧ t'.after.rhs x.q x.u = .ok (vsmul c y)) ∧
    (t.Decided r m → ∃ O, t.after.operatorMatrix = .ok O ∧
      t'.after.operatorMatrix = .ok ⟨O.nrows, O.ncols, O.rows.map (vsmul c)⟩) := by
  have e : ∀ a : List K, lin2 c a 0 a = vsmul c a := by
    intro a
    induction a with
    | nil => rfl
    | cons x a ih =>
      simp only [lin2, vadd, vsmul, map_cons, zipWith_cons_cons, zero_mul, add_zero] at ih ⊢
      rw [ih]
  obtain ⟨g1, g2, -⟩ := C117_plain lstsq hls t t t' r m h h h' c 0
    ⟨rfl, hb, rfl, hst, rfl, hin, fun j hj => by rw [hl j hj, e]⟩ (.inr hk)
  refine ⟨fun x hx => ?_, fun hd => ?_⟩
  · obtain ⟨y1, y2, a1, a2, a3⟩ := g1 x hx
    rw [a1, Except.ok.injEq] at a2
    subst a2
    rw [e] at a3
    exact ⟨y1, a1, a3⟩
  · obtain ⟨O1, O2, a1, a2, a3⟩ := g2 hd
    rw [a1, Except.ok.injEq] at a2
    subst a2
    refine ⟨O1, a1, a3.trans ?_⟩
    rw [Mat.lin2]
    congr 2
    rw [zipWith_self]
    exact map_congr_left fun a _ => e a

end

/-! ### Examples -/

theorem supT_done : (resT 1 2 3).Done (plainSolver resLs) 1 0 ∧ (resT 2 14 11).Done (plainSolver resLs) 1 0 := by
  refine ⟨⟨ordModel_inv _ _, rfl, by unfold Arg.WF; decide +kernel, by unfold Arg.WF; decide +kernel, (fun a h => by cases h),
    rfl, by omega, (fun a h => by cases h), Prod.ext rfl (by
      change ((ordModel .const .lin).fit (plainSolver resLs) (.mat 1 [[0], [1], [2]]) (.mat 1 [[1], [2], [3]]) none).2 = _
      decide +kernel)⟩,
    ⟨ordModel_inv _ _, rfl, by unfold Arg.WF; decide +kernel, by unfold Arg.WF; decide +kernel, (fun a h => by cases h),
    rfl, by omega, (fun a h => by cases h), Prod.ext rfl (by
      change ((ordModel .const .lin).fit (plainSolver resLs) (.mat 1 [[0], [1], [2]]) (.mat 1 [[2], [14], [11]]) none).2 = _
      decide +kernel)⟩⟩

-- (2, 14, 11) = (5/2) (0, 4, 2) + 2 (1, 2, 3)
theorem supT_superposed : Superposed (5 / 2) 2 (resT 0 4 2) (resT 1 2 3) (resT 2 14 11) := by
  refine ⟨rfl, rfl, rfl, rfl, rfl, rfl, fun j hj => ?_⟩
  have : j = 0 ∨ j = 1 ∨ j = 2 := by
    have : j < 3 := hj
    omega
  rcases this with rfl | rfl | rfl <;> decide +kernel

theorem supT_decided : (resT 0 4 2).Decided 1 0 := by
  intro v hv h
  obtain ⟨a, b, rfl⟩ : ∃ a b, v = [a, b] := by
    match v, hv with
    | [a, b], _ => exact ⟨a, b, rfl⟩
  have h0 := h ⟨[0], [0], none⟩ (by simp [Training.samples, argSamples, resT, atleast2d, inputAt, range_succ])
  have h1 := h ⟨[1], [4], none⟩ (by simp [Training.samples, argSamples, resT, atleast2d, inputAt, range_succ])
  simp [resT, ordModel, Model.toInfer, dataVector, OpKind.dataCol, dot] at h0 h1
  simp [h0] at h1
  simp [h0, h1]

-- all hypotheses of `C117_plain` hold, with data that do not fit exactly
example : ∃ O1 O2, (resT 0 4 2).after.operatorMatrix = .ok O1 ∧ (resT 1 2 3).after.operatorMatrix = .ok O2 ∧
    (resT 2 14 11).after.operatorMatrix = .ok (Mat.lin2 (5 / 2) O1 2 O2) :=
  (C117_plain resLs resLs_spec _ _ _ 1 0 resT_done supT_done.1 supT_done.2 _ _ supT_superposed
    (.inr (by decide))).matrix supT_decided

example : (resT 0 4 2).after.operatorMatrix = .ok ⟨1, 2, [[1, 1]]⟩ ∧ (resT 1 2 3).after.operatorMatrix = .ok ⟨1, 2, [[1, 1]]⟩ ∧
    (resT 2 14 11).after.operatorMatrix = .ok ⟨1, 2, [[9 / 2, 9 / 2]]⟩ := by
  refine ⟨?_, ?_, ?_⟩ <;> decide +kernel

end Opinf
