import Verif.Props.TrainOrder

/-!
# Normal equations

The smallest cost is characterised by orthogonality of the residuals.
-/

namespace Opinf

open List

variable {K : Type}

/-- `P + t H`, row by row. -/
def shiftRows [Add K] [Mul K] (P : List (List K)) (t : K) (H : List (List K)) : List (List K) :=
  zipWith (fun a b => vadd a (vsmul t b)) P H

/-- A nonnegative symmetric bilinear form on vectors of length `n`. -/
structure Pairing [Field K] [LinearOrder K] (n : Nat) (B : List K → List K → K) : Prop where
  nonneg : ∀ a, 0 ≤ B a a
  symm : ∀ a b, B a b = B b a
  linear : ∀ (a b h : List K) (c d : K), a.length = n → b.length = n → h.length = n →
    B (vadd (vsmul c a) (vsmul d b)) h = c * B a h + d * B b h

section

variable [Field K] [LinearOrder K] [IsStrictOrderedRing K]

theorem pairing_dot (n : Nat) (c : K) : Pairing n fun a b : List K => c ^ 2 * dot a b where
  nonneg a := mul_nonneg (sq_nonneg c) (dot_self_nonneg a)
  symm a b := by rw [dot_comm' a b]
  linear a b h x y ha hb _ := by
    rw [dot_vadd_left _ _ _ (by simp [vsmul, ha, hb]), dot_vsmul_left, dot_vsmul_left]
    ring

theorem pairing_matVec (n : Nat) (G : List (List K)) :
    Pairing n fun a b : List K => dot (matVec G a) (matVec G b) where
  nonneg a := dot_self_nonneg _
  symm a b := dot_comm' _ _
  linear a b h x y ha hb _ := by
    rw [matVec_vadd _ _ _ (by simp [vsmul, ha, hb]), matVec_vsmul, matVec_vsmul,
      dot_vadd_left _ _ _ (by simp [vsmul, length_matVec]), dot_vsmul_left, dot_vsmul_left]

theorem Pairing.expand {n : Nat} {B : List K → List K → K} (hB : Pairing n B) (a b : List K) (t : K)
    (ha : a.length = n) (hb : b.length = n) :
    B (vadd a (vsmul t b)) (vadd a (vsmul t b)) = B a a + 2 * t * B a b + t ^ 2 * B b b := by
  have h1 : a = vsmul 1 a := by simp [vsmul]
  have hl : (vadd (vsmul 1 a) (vsmul t b)).length = n := by simp [vadd, vsmul, ha, hb]
  have e : vadd a (vsmul t b) = vadd (vsmul 1 a) (vsmul t b) := by rw [← h1]
  rw [e, hB.linear a b _ 1 t ha hb hl, hB.symm a, hB.symm b, hB.linear a b a 1 t ha hb ha,
    hB.linear a b b 1 t ha hb hb, hB.symm b a]
  ring

omit [LinearOrder K] [IsStrictOrderedRing K] in
theorem matVec_shiftRows {n : Nat} (P H : List (List K)) (t : K) (v : List K) (hP : ∀ a ∈ P, a.length = n)
    (hH : ∀ a ∈ H, a.length = n) :
    matVec (shiftRows P t H) v = vadd (matVec P v) (vsmul t (matVec H v)) := by
  induction P generalizing H with
  | nil => rfl
  | cons a P ih =>
    cases H with
    | nil => rfl
    | cons b H =>
      have := ih H (fun x hx => hP x (mem_cons_of_mem _ hx)) fun x hx => hH x (mem_cons_of_mem _ hx)
      simp only [shiftRows, matVec, vadd, vsmul, zipWith_cons_cons, map_cons] at this ⊢
      rw [this]
      congr 1
      have h1 := dot_vadd_left a (vsmul t b) v (by
        simp [vsmul, hP a mem_cons_self, hH b mem_cons_self])
      rw [dot_vsmul_left] at h1
      exact h1

omit [LinearOrder K] [IsStrictOrderedRing K] in
theorem sumSq_step (z p h w : List K) (t : K) (hp : p.length = z.length) (hh : h.length = z.length)
    (hw : w.length = z.length) :
    sumSq (vsub z (vadd (vadd p (vsmul t h)) w)) =
      sumSq (vsub z (vadd p w)) - 2 * t * dot (vsub z (vadd p w)) h + t ^ 2 * sumSq h := by
  induction z generalizing p h w with
  | nil =>
    simp only [length_nil, length_eq_zero_iff] at hp hh hw
    subst hp hh hw
    simp [sumSq, vsub, dot]
  | cons z zs ih =>
    cases p with
    | nil => simp at hp
    | cons p ps =>
      cases h with
      | nil => simp at hh
      | cons h hs =>
        cases w with
        | nil => simp at hw
        | cons w ws =>
          have := ih ps hs ws (by simpa using hp) (by simpa using hh) (by simpa using hw)
          simp only [sumSq, vsub, vadd, vsmul, dot, zipWith_cons_cons, map_cons, sum_cons] at this ⊢
          linear_combination this

/-- The residual at a sample. -/
def residualAt (w : TrainSample K → List K) (kinds : List OpKind) (P : List (List K)) (x : TrainSample K) : List K :=
  vsub x.z (vadd (matVec P (dataVector kinds x.q (x.u.getD []))) (w x))

theorem matCost_shift {n r : Nat} {B : List K → List K → K} (hB : Pairing n B) (xs : List (TrainSample K))
    (w : TrainSample K → List K) (kinds : List OpKind) (hz : ∀ x ∈ xs, x.z.length = r)
    (hw : ∀ x ∈ xs, (w x).length = r) (P H : List (List K)) (t : K) (hP : P.length = r) (hH : H.length = r)
    (hPr : ∀ a ∈ P, a.length = n) (hHr : ∀ a ∈ H, a.length = n) :
    matCost (fun a => B a a) xs w kinds (shiftRows P t H) =
      matCost (fun a => B a a) xs w kinds P -
        2 * t * ((xs.map fun x => dot (residualAt w kinds P x) (matVec H (dataVector kinds x.q (x.u.getD [])))).sum -
          (zipWith B P H).sum) +
        t ^ 2 * ((xs.map fun x => sumSq (matVec H (dataVector kinds x.q (x.u.getD [])))).sum +
          (H.map fun a => B a a).sum) := by
  have h1 : ∀ l : List (TrainSample K), (∀ x ∈ l, x.z.length = r) → (∀ x ∈ l, (w x).length = r) →
      (l.map fun x => sumSq (vsub x.z (vadd (matVec (shiftRows P t H) (dataVector kinds x.q (x.u.getD []))) (w x)))).sum =
      (l.map fun x => sumSq (vsub x.z (vadd (matVec P (dataVector kinds x.q (x.u.getD []))) (w x)))).sum -
        2 * t * (l.map fun x => dot (residualAt w kinds P x) (matVec H (dataVector kinds x.q (x.u.getD [])))).sum +
        t ^ 2 * (l.map fun x => sumSq (matVec H (dataVector kinds x.q (x.u.getD [])))).sum := by
    intro l hz hw
    induction l with
    | nil => simp
    | cons x l ih =>
      have i1 := ih (fun y hy => hz y (mem_cons_of_mem _ hy)) fun y hy => hw y (mem_cons_of_mem _ hy)
      have i2 := sumSq_step x.z (matVec P (dataVector kinds x.q (x.u.getD [])))
        (matVec H (dataVector kinds x.q (x.u.getD []))) (w x) t
        (by rw [length_matVec, hP, hz x mem_cons_self]) (by rw [length_matVec, hH, hz x mem_cons_self])
        (by rw [hw x mem_cons_self, hz x mem_cons_self])
      simp only [map_cons, sum_cons, residualAt] at i1 ⊢
      rw [matVec_shiftRows P H t _ hPr hHr]
      linear_combination i1 + i2
  have h2 : ((shiftRows P t H).map fun a => B a a).sum = (P.map fun a => B a a).sum +
      2 * t * (zipWith B P H).sum + t ^ 2 * (H.map fun a => B a a).sum := by
    have hl : P.length = H.length := by rw [hP, hH]
    clear * - hl hPr hHr hB
    induction P generalizing H with
    | nil => cases H <;> simp_all [shiftRows]
    | cons a P ih =>
      cases H with
      | nil => simp at hl
      | cons b H =>
        have i1 := ih H (fun x hx => hPr x (mem_cons_of_mem _ hx)) (fun x hx => hHr x (mem_cons_of_mem _ hx)) (by simpa using hl)
        have i2 := hB.expand a b t (hPr a mem_cons_self) (hHr b mem_cons_self)
        simp only [shiftRows, zipWith_cons_cons, map_cons, sum_cons] at i1 ⊢
        linear_combination i1 + i2
  rw [matCost, matCost, h1 xs hz hw, h2]
  ring

theorem linear_term_zero {L Q : K} (h : ∀ t : K, 0 ≤ -(2 * t * L) + t ^ 2 * Q) : L = 0 := by
  by_contra hL
  by_cases hQ : 0 < Q
  · have h1 := h (L / Q)
    have e : -(2 * (L / Q) * L) + (L / Q) ^ 2 * Q = -(L ^ 2 / Q) := by field_simp; ring
    rw [e] at h1
    have : 0 < L ^ 2 / Q := div_pos (by positivity) hQ
    linarith
  · have h1 := h L
    have : 0 < L ^ 2 := by positivity
    nlinarith

/-- The smallest cost is attained exactly where the residuals are orthogonal to all alternatives, up to the penalty. -/
theorem minimal_iff {n r : Nat} {B : List K → List K → K} (hB : Pairing n B) (xs : List (TrainSample K))
    (w : TrainSample K → List K) (kinds : List OpKind) (hz : ∀ x ∈ xs, x.z.length = r)
    (hw : ∀ x ∈ xs, (w x).length = r) (P : List (List K)) (hP : P.length = r) (hPr : ∀ a ∈ P, a.length = n) :
    (∀ R : List (List K), R.length = r → (∀ a ∈ R, a.length = n) →
      matCost (fun a => B a a) xs w kinds P ≤ matCost (fun a => B a a) xs w kinds R) ↔
    ∀ H : List (List K), H.length = r → (∀ a ∈ H, a.length = n) →
      (xs.map fun x => dot (residualAt w kinds P x) (matVec H (dataVector kinds x.q (x.u.getD [])))).sum =
        (zipWith B P H).sum := by
  constructor
  · intro h H hH hHr
    refine sub_eq_zero.1 (linear_term_zero (Q := (xs.map fun x => sumSq (matVec H (dataVector kinds x.q (x.u.getD [])))).sum +
          (H.map fun a => B a a).sum) fun t => ?_)
    have h1 := h (shiftRows P t H) (by simp [shiftRows, hP, hH]) (by
      intro a ha
      obtain ⟨i, hi, rfl⟩ := getElem_of_mem ha
      have h1 : i < P.length ∧ i < H.length := by simpa [shiftRows] using hi
      simp [shiftRows, vadd, vsmul, hPr _ (getElem_mem h1.1), hHr _ (getElem_mem h1.2)])
    rw [matCost_shift hB xs w kinds hz hw P H t hP hH hPr hHr] at h1
    linarith
  · intro h R hR hRr
    obtain ⟨H, hHd⟩ : ∃ H, H = zipWith vsub R P := ⟨_, rfl⟩
    have hH : H.length = r := by rw [hHd, length_zipWith, hR, hP, min_self]
    have hHr : ∀ a ∈ H, a.length = n := by
      intro a ha
      rw [hHd] at ha
      obtain ⟨i, hi, rfl⟩ := getElem_of_mem ha
      have h1 : i < R.length ∧ i < P.length := by simpa using hi
      simp [vsub, hPr _ (getElem_mem h1.2), hRr _ (getElem_mem h1.1)]
    have hsh : shiftRows P 1 H = R := by
      rw [hHd]
      clear * - hP hR hPr hRr
      have hl : R.length = P.length := by rw [hP, hR]
      clear hP hR
      induction P generalizing R with
      | nil => cases R <;> simp_all [shiftRows]
      | cons a P ih =>
        cases R with
        | nil => simp at hl
        | cons b R =>
          have := ih (fun x hx => hPr x (mem_cons_of_mem _ hx)) R (fun x hx => hRr x (mem_cons_of_mem _ hx)) (by simpa using hl)
          simp only [shiftRows, zipWith_cons_cons] at this ⊢
          rw [this]
          congr 1
          have hab : a.length = b.length := by rw [hPr a mem_cons_self, hRr b mem_cons_self]
          clear * - hab
          induction a generalizing b with
          | nil => cases b <;> simp_all [vadd]
          | cons x a ih =>
            cases b with
            | nil => simp at hab
            | cons y b =>
              have := ih b (by simpa using hab)
              simp only [vadd, vsmul, vsub, zipWith_cons_cons, map_cons] at this ⊢
              rw [this]
              congr 1
              ring
    have h1 := matCost_shift hB xs w kinds hz hw P H 1 hP hH hPr hHr
    rw [hsh, h H hH hHr] at h1
    have h2 : 0 ≤ (xs.map fun x => sumSq (matVec H (dataVector kinds x.q (x.u.getD [])))).sum :=
      List.sum_nonneg fun y hy => by
        obtain ⟨x, -, rfl⟩ := mem_map.1 hy
        exact sumSq_nonneg _
    have h3 : 0 ≤ (H.map fun a => B a a).sum :=
      List.sum_nonneg fun y hy => by
        obtain ⟨x, -, rfl⟩ := mem_map.1 hy
        exact hB.nonneg _
    linarith

end

end Opinf
