import Verif.Model.Lstsq
import Verif.Lemmas.LinAlg
import Mathlib.Tactic.Linarith
import Mathlib.Tactic.LinearCombination
import Mathlib.Tactic.FieldSimp
import Mathlib.Tactic.Positivity

/-!
# Inner-product lemmas for the least-squares solvers
-/

namespace Opinf

open List

variable {K : Type}

theorem sumSq_eq_dot [CommSemiring K] (v : List K) : sumSq v = dot v v := by
  induction v with
  | nil => simp [sumSq]
  | cons x v ih =>
    rw [dot_cons, ← ih]
    simp [sumSq, sq]

theorem dot_vsub_left [CommRing K] (a b z : List K) (h : a.length = b.length) :
    dot (vsub a b) z = dot a z - dot b z := by
  induction a generalizing b z with
  | nil => cases b <;> simp_all [vsub]
  | cons x a ih =>
    cases b with
    | nil => simp at h
    | cons y b =>
      cases z with
      | nil => simp
      | cons w z =>
        have := ih b z (by simpa using h)
        simp only [vsub, zipWith_cons_cons, dot_cons] at this ⊢
        rw [this]; ring

theorem dot_vsub_right [CommRing K] (z a b : List K) (h : a.length = b.length) :
    dot z (vsub a b) = dot z a - dot z b := by
  rw [dot_comm', dot_vsub_left a b z h, dot_comm' a, dot_comm' b]

theorem matVec_vsub [CommRing K] (A : List (List K)) (a b : List K) (h : a.length = b.length) :
    matVec A (vsub a b) = vsub (matVec A a) (matVec A b) := by
  induction A with
  | nil => simp [matVec, vsub]
  | cons r A ih =>
    simp only [matVec, map_cons, vsub, zipWith_cons_cons] at ih ⊢
    rw [ih]
    congr 1
    exact dot_vsub_right r a b h

attribute [simp] length_matVec

section Ordered

variable [Field K] [LinearOrder K] [IsStrictOrderedRing K]

theorem dot_self_nonneg (v : List K) : 0 ≤ dot v v := by
  induction v with
  | nil => simp
  | cons x v ih => rw [dot_cons]; nlinarith [mul_self_nonneg x]

theorem sumSq_nonneg (v : List K) : 0 ≤ sumSq v := by rw [sumSq_eq_dot]; exact dot_self_nonneg v

theorem dot_self_eq_zero (v : List K) (h : dot v v = 0) : v = replicate v.length 0 := by
  induction v with
  | nil => rfl
  | cons x v ih =>
    rw [dot_cons] at h
    have h1 := mul_self_nonneg x
    have h2 := dot_self_nonneg v
    have hx : x * x = 0 := by linarith
    have hv : dot v v = 0 := by linarith
    rw [length_cons, replicate_succ, ← ih hv, mul_self_eq_zero.mp hx]

theorem sumSq_eq_zero (v : List K) (h : sumSq v = 0) : v = replicate v.length 0 :=
  dot_self_eq_zero v (by rwa [← sumSq_eq_dot])

end Ordered

theorem vsub_eq_zero [CommRing K] (a b : List K) (h : a.length = b.length)
    (h0 : vsub a b = replicate a.length 0) : a = b := by
  induction a generalizing b with
  | nil => cases b <;> simp_all
  | cons x a ih =>
    cases b with
    | nil => simp at h
    | cons y b =>
      simp only [vsub, zipWith_cons_cons, length_cons, replicate_succ, cons.injEq] at h0
      rw [sub_eq_zero.mp h0.1, ih b (by simpa using h) h0.2]

theorem sumSq_vsub [CommRing K] (a b : List K) (h : a.length = b.length) :
    sumSq (vsub a b) = sumSq a - 2 * dot a b + sumSq b := by
  simp only [sumSq_eq_dot]
  rw [dot_vsub_left _ _ _ h, dot_vsub_right _ _ _ h, dot_vsub_right _ _ _ h, dot_comm' b a]
  ring

theorem sumSq_append [Semiring K] (a b : List K) : sumSq (a ++ b) = sumSq a + sumSq b := by
  simp [sumSq]

theorem sumSq_vsmul [CommSemiring K] (c : K) (a : List K) :
    sumSq (vsmul c a) = c ^ 2 * sumSq a := by
  rw [sumSq_eq_dot, sumSq_eq_dot, dot_vsmul_left, dot_vsmul_right]; ring

theorem sumSq_replicate_zero [Semiring K] (n : Nat) : sumSq (replicate n (0 : K)) = 0 := by
  simp [sumSq]

theorem vsub_append [Sub K] (a b c d : List K) (h : a.length = c.length) :
    vsub (a ++ b) (c ++ d) = vsub a c ++ vsub b d := by
  rw [vsub, zipWith_append h]; rfl

theorem vsub_replicate_zero [Ring K] (a : List K) (n : Nat) (h : a.length = n) :
    vsub a (replicate n 0) = a := by
  subst h
  induction a with
  | nil => rfl
  | cons x a ih =>
    simp only [vsub, length_cons, replicate_succ, zipWith_cons_cons, sub_zero] at ih ⊢
    rw [ih]

theorem matVec_append [Semiring K] (A B : List (List K)) (x : List K) :
    matVec (A ++ B) x = matVec A x ++ matVec B x := by simp [matVec]

/-- Pythagoras: if `x` satisfies the (weak) normal equations for `‖D y − z‖² + ‖G y‖²`, the objective
at any `y` exceeds the one at `x` by `‖D (y − x)‖² + ‖G (y − x)‖²`. Stated for abstract linear maps
`f`, `g` on vectors of length `d`. -/
theorem pythagoras [CommRing K] (f g : List K → List K) (d k l : Nat)
    (hf : ∀ y, y.length = d → (f y).length = k) (hg : ∀ y, y.length = d → (g y).length = l)
    (hfs : ∀ a b, a.length = d → b.length = d → f (vsub a b) = vsub (f a) (f b))
    (hgs : ∀ a b, a.length = d → b.length = d → g (vsub a b) = vsub (g a) (g b))
    (z x y : List K) (hz : z.length = k) (hx : x.length = d) (hy : y.length = d)
    (hn : ∀ y, y.length = d → dot (f y) (vsub (f x) z) + dot (g y) (g x) = 0) :
    sumSq (vsub (f y) z) + sumSq (g y) =
      sumSq (vsub (f x) z) + sumSq (g x) + (sumSq (f (vsub y x)) + sumSq (g (vsub y x))) := by
  have hyx : (vsub y x).length = d := by simp [hx, hy]
  have e := hn _ hyx
  rw [hfs _ _ hy hx, hgs _ _ hy hx,
    dot_vsub_left _ _ _ (by rw [hf _ hy, hf _ hx]), dot_vsub_left _ _ _ (by rw [hg _ hy, hg _ hx]),
    dot_vsub_right _ _ _ (by rw [hf _ hx, hz]), dot_vsub_right _ _ _ (by rw [hf _ hx, hz])] at e
  rw [hfs _ _ hy hx, hgs _ _ hy hx, sumSq_vsub _ _ (by rw [hf _ hy, hz]),
    sumSq_vsub _ _ (by rw [hf _ hx, hz]), sumSq_vsub _ _ (by rw [hf _ hy, hf _ hx]),
    sumSq_vsub _ _ (by rw [hg _ hy, hg _ hx])]
  simp only [sumSq_eq_dot]
  linear_combination 2 * e

/-! ### Transposes -/

theorem dot_unit [CommSemiring K] (d j : Nat) (v : List K) (hv : v.length = d) (hj : j < d) :
    dot v ((range d).map fun i => if j = i then 1 else 0) = v.getD j 0 := by
  rw [dot_comm']
  have := dot_delta (K := K) j d v hv hj
  simpa using this

theorem matVec_transpose [CommSemiring K] (d : Nat) (A : List (List K)) (y : List K)
    (hA : ∀ a ∈ A, a.length = d) : matVec (transpose d A) y = vecMat d y A := by
  have hl : (vecMat d y A).length = d := length_vecMat d y A hA
  apply ext_getElem
  · simp [transpose, hl]
  · intro j h1 h2
    have hj : j < d := hl ▸ h2
    have e : (vecMat d y A).getD j 0 = (vecMat d y A)[j] := by
      rw [getD_eq_getElem?_getD, getElem?_eq_getElem h2]; rfl
    rw [← e, ← dot_unit d j _ hl hj, dot_vecMat d y A _ hA]
    simp only [matVec, transpose, map_map, getElem_map, getElem_range, Function.comp_apply]
    rw [dot_comm']
    congr 1
    apply map_congr_left
    intro a ha
    exact (dot_unit d j a (hA a ha) hj).symm

/-- `⟨A x, y⟩ = ⟨x, Aᵀ y⟩`. -/
theorem dot_matVec_left [CommSemiring K] (d : Nat) (A : List (List K)) (x y : List K)
    (hA : ∀ a ∈ A, a.length = d) :
    dot (matVec A x) y = dot x (matVec (transpose d A) y) := by
  rw [matVec_transpose d A y hA, dot_comm', dot_comm' x, dot_vecMat d y A x hA]

theorem vecMat_nil_left [Semiring K] (c : Nat) (M : List (List K)) :
    vecMat c [] M = replicate c 0 := by simp [vecMat]

/-- Rows of `A @ B` act as `bᵀ`. -/
theorem vecMat_vadd_like [CommRing K] (c : Nat) (h g : List K) (M : List (List K)) (z : List K)
    (hM : ∀ r ∈ M, r.length = c) (hg : h.length = g.length) :
    dot (vecMat c (vsub h g) M) z = dot (vecMat c h M) z - dot (vecMat c g M) z := by
  simp only [dot_vecMat c _ M z hM]
  exact dot_vsub_left _ _ _ hg

/-! ### Spectral solutions -/

/-- The map `y ↦ Φ (s * (Ψᵀ y))` (list product entrywise). -/
def spectral [Semiring K] (Phi PsiT : List (List K)) (s y : List K) : List K :=
  matVec Phi (zipWith (· * ·) s (matVec PsiT y))

theorem zipWith_mul_vsub [CommRing K] (s a b : List K) :
    zipWith (· * ·) s (vsub a b) = vsub (zipWith (· * ·) s a) (zipWith (· * ·) s b) := by
  induction s generalizing a b with
  | nil => simp [vsub]
  | cons x s ih =>
    cases a with
    | nil => simp [vsub]
    | cons y a =>
      cases b with
      | nil => simp [vsub]
      | cons w b =>
        have := ih a b
        simp only [vsub, zipWith_cons_cons] at this ⊢
        rw [this, mul_sub]

theorem spectral_vsub [CommRing K] (Phi PsiT : List (List K)) (s a b : List K)
    (h : a.length = b.length) :
    spectral Phi PsiT s (vsub a b) = vsub (spectral Phi PsiT s a) (spectral Phi PsiT s b) := by
  rw [spectral, matVec_vsub _ _ _ h, zipWith_mul_vsub, matVec_vsub]
  · rfl
  · simp

/-- The pointwise identity behind the normal equations. -/
theorem spectral_sum [CommRing K] (lam : K) (s c g w : List K) (hc : s.length = c.length)
    (hg : s.length = g.length) (hw : s.length = w.length)
    (h : ∀ j, j < s.length →
      (s.getD j 0 ^ 2 + lam ^ 2) * c.getD j 0 = s.getD j 0 * g.getD j 0) :
    dot (zipWith (· * ·) s w) (zipWith (· * ·) s c) - dot (zipWith (· * ·) s w) g
      + lam ^ 2 * dot c w = 0 := by
  induction s generalizing c g w with
  | nil =>
    obtain rfl := length_eq_zero_iff.mp hc.symm
    simp
  | cons x s ih =>
    cases c with
    | nil => simp at hc
    | cons y c =>
      cases g with
      | nil => simp at hg
      | cons u g =>
        cases w with
        | nil => simp at hw
        | cons v w =>
          have h0 := h 0 (by simp)
          have := ih c g w (by simpa using hc) (by simpa using hg) (by simpa using hw)
            (fun j hj => by simpa using h (j + 1) (by simpa using hj))
          simp only [getD_cons_zero] at h0
          simp only [zipWith_cons_cons, dot_cons]
          linear_combination this + v * h0

/-- `x = Ψ c` satisfies the normal equations of `‖Φ S Ψᵀ y − z‖² + λ² ‖y‖²` when
`(sⱼ² + λ²) cⱼ = sⱼ ⟨φⱼ, z⟩`. -/
theorem spectral_normal [CommRing K] (Phi PsiT : List (List K)) (p d : Nat) (s c z : List K) (lam : K)
    (hPhi : ∀ a ∈ Phi, a.length = p) (hPsi : ∀ a ∈ PsiT, a.length = d) (hPl : PsiT.length = p)
    (hs : s.length = p) (hc : c.length = p) (hz : z.length = Phi.length)
    (oPhi : ∀ v w, v.length = p → w.length = p → dot (matVec Phi v) (matVec Phi w) = dot v w)
    (oPsi : ∀ v, v.length = p → matVec PsiT (vecMat d v PsiT) = v)
    (h : ∀ j, j < p →
      (s.getD j 0 ^ 2 + lam ^ 2) * c.getD j 0 = s.getD j 0 * (vecMat p z Phi).getD j 0)
    (y : List K) :
    dot (spectral Phi PsiT s y) (vsub (spectral Phi PsiT s (vecMat d c PsiT)) z)
      + lam ^ 2 * dot y (vecMat d c PsiT) = 0 := by
  have hw : (matVec PsiT y).length = p := by simp [hPl]
  have hsw : (zipWith (· * ·) s (matVec PsiT y)).length = p := by simp [hs, hPl]
  have hsc : (zipWith (· * ·) s c).length = p := by simp [hs, hc]
  rw [spectral, spectral, oPsi c hc, dot_vsub_right _ _ _ (by simp [hz]), oPhi _ _ hsw hsc,
    dot_comm' y, dot_vecMat d c PsiT y hPsi, dot_comm' _ z, ← dot_vecMat p z Phi _ hPhi,
    dot_comm' (vecMat p z Phi)]
  exact spectral_sum lam s c _ _ (by rw [hs, hc]) (by rw [hs, length_vecMat p z Phi hPhi])
    (by rw [hs, hw]) (by rwa [hs])

end Opinf
