import Verif.Lemmas.Translate
import Verif.Props.AffineCoordinates

/-!
# Changes of the coordinates of the inputs act linearly on the data vectors
-/

namespace Opinf

open List

variable {K : Type}

/-- The classes that a shift of the inputs leads to: the constant with the inputs, the states with products of inputs and
states. -/
structure InputComplete (kinds : List OpKind) : Prop where
  inp : OpKind.inp ∈ kinds → OpKind.const ∈ kinds
  stateInp : OpKind.stateInp ∈ kinds → OpKind.lin ∈ kinds

/-- The input `B u + e`, if there is an input. -/
def affineInput [Semiring K] (B : List (List K)) (e : List K) (u : Option (List K)) : Option (List K) := u.map (affineMap B e)

section

variable [Field K] {kinds : List OpKind} {r m : Nat}

theorem affineInput_ok {B : List (List K)} {e : List K} (hB : B.length = m) (he : e.length = m) {o : OpKind}
    {u : Option (List K)} (h : InputOK o m u) : InputOK o m (affineInput B e u) := by
  intro hi
  obtain ⟨v, rfl, -⟩ := h hi
  exact ⟨_, rfl, by rw [affineMap, length_vadd, length_matVec, hB, he, min_self]⟩

theorem Spanned.zero : Spanned (K := K) kinds r m fun _ _ => 0 :=
  ⟨replicate (kinds.map fun o => o.dim r m).sum 0, by simp, fun q u _ _ => by rw [dot_zeros]⟩

/-- Sums over the entries of the input. -/
theorem spanned_dot {f : Nat → List K → Option (List K) → K} (row : List K) (n : Nat)
    (h : ∀ i, i < n → Spanned kinds r m (f i)) :
    Spanned kinds r m fun q u => ((range n).map fun i => row.getD i 0 * f i q u).sum := by
  induction n with
  | zero => exact Spanned.zero.congr fun q u _ _ => by simp
  | succ n ih =>
    refine ((ih fun i hi => h i (by omega)).add ((h n (by omega)).smul (row.getD n 0))).congr fun q u _ _ => ?_
    rw [range_succ, map_append, sum_append]
    simp

theorem dot_index (row v : List K) (n : Nat) (h1 : row.length = n) (h2 : v.length = n) :
    dot row v = ((range n).map fun i => row.getD i 0 * v.getD i 0).sum := by
  rw [dot]
  refine congrArg List.sum (ext_getElem (by simp [h1, h2]) fun i i1 i2 => ?_)
  have hi : i < n := by simpa using i2
  simp [h1, h2, hi]

theorem affineMap_getD {B : List (List K)} {e v : List K} (hB : IsMat m m B) (he : e.length = m) (hv : v.length = m) {i : Nat}
    (hi : i < m) : (affineMap B e v).getD i 0 =
      ((range m).map fun k => (B.getD i []).getD k 0 * v.getD k 0).sum + e.getD i 0 := by
  have hi' : i < B.length := by rw [hB.1]; exact hi
  rw [affineMap, getD_vadd _ _ (by rw [length_matVec, hB.1, he]), getD_matVec,
    dot_index _ v m (by rw [Opinf.getD_eq_getElem _ [] hi']; exact hB.2 _ (getElem_mem hi')) hv]

/-- Each entry of the data at the changed input is a linear function of the data at the input. -/
theorem spanned_input {B : List (List K)} (hB : IsMat m m B) {e : List K} (he : e.length = m)
    (hc : e = replicate m 0 ∨ InputComplete kinds) {o : OpKind} (ho : o ∈ kinds) {j : Nat} (hj : j < o.dim r m) :
    Spanned kinds r m fun q u => (o.dataCol q ((affineInput B e u).getD [])).getD j 0 := by
  cases o with
  | const => exact spanned_entry (K := K) ho hj
  | lin => exact spanned_entry (K := K) ho hj
  | kron k => exact spanned_entry (K := K) ho hj
  | inp =>
    have hj : j < m := hj
    have s1 := spanned_dot (kinds := kinds) (r := r) (m := m) (B.getD j []) m
      (f := fun i q u => (OpKind.inp.dataCol q (u.getD [])).getD i 0) fun i hi => spanned_entry ho hi
    have s2 : Spanned (K := K) kinds r m fun _ _ => e.getD j 0 := by
      rcases hc with h0 | hc
      · rw [h0]
        refine Spanned.zero.congr fun q u _ _ => ?_
        rw [Opinf.getD_eq_getElem _ 0 (by simpa using hj)]
        simp
      · exact ((spanned_entry (hc.inp ho) (j := 0) (by simp [OpKind.dim])).smul (e.getD j 0)).congr fun q u _ _ => by
          simp [OpKind.dataCol]
    refine (s1.add s2).congr fun q u hq hu => ?_
    obtain ⟨v, rfl, hv⟩ := hu _ ho rfl
    exact (affineMap_getD hB he hv hj).symm
  | stateInp =>
    have hr : 0 < r := by
      rcases Nat.eq_zero_or_pos r with h | h
      · subst h; simp [OpKind.dim] at hj
      · exact h
    have hm : j / r < m := Nat.div_lt_of_lt_mul hj
    have hb : j % r < r := Nat.mod_lt _ hr
    have hj' : j / r * r + j % r = j := by rw [Nat.mul_comm]; exact Nat.div_add_mod j r
    have en : ∀ (v x : List K) (i : Nat), x.length = r →
        (Opinf.kron v x).getD (i * r + j % r) 0 = v.getD i 0 * x.getD (j % r) 0 := by
      intro v x i hx
      have := kron_getD v x i (j % r) (by rw [hx]; exact hb)
      rw [hx] at this
      exact this
    have s1 := spanned_dot (kinds := kinds) (r := r) (m := m) (B.getD (j / r) []) m
      (f := fun i q u => (OpKind.stateInp.dataCol q (u.getD [])).getD (i * r + j % r) 0) fun i hi => spanned_entry ho (by
        show i * r + j % r < r * m
        calc i * r + j % r < i * r + r := by omega
          _ = (i + 1) * r := by ring
          _ ≤ m * r := Nat.mul_le_mul_right r hi
          _ = r * m := Nat.mul_comm _ _)
    have s2 : Spanned (K := K) kinds r m fun q _ => e.getD (j / r) 0 * q.getD (j % r) 0 := by
      rcases hc with h0 | hc
      · rw [h0]
        refine Spanned.zero.congr fun q u _ _ => ?_
        rw [Opinf.getD_eq_getElem _ 0 (by simpa using hm)]
        simp
      · exact ((spanned_entry (hc.stateInp ho) (j := j % r) hb).smul (e.getD (j / r) 0)).congr fun q u _ _ => by
          simp [OpKind.dataCol]
    refine (s1.add s2).congr fun q u hq hu => ?_
    obtain ⟨v, rfl, hv⟩ := hu _ ho rfl
    show ((range m).map fun i => (B.getD (j / r) []).getD i 0 * (Opinf.kron v q).getD (i * r + j % r) 0).sum +
      e.getD (j / r) 0 * q.getD (j % r) 0 = (Opinf.kron (affineMap B e v) q).getD j 0
    have hR := en (affineMap B e v) q (j / r) hq
    rw [hj'] at hR
    rw [hR, affineMap_getD hB he hv hm, add_mul]
    congr 1
    rw [← List.sum_map_mul_right]
    refine congrArg List.sum (map_congr_left fun i _ => ?_)
    rw [en v q i hq, mul_assoc]

/-- The data vector at the changed input is a matrix times the data vector at the input. -/
theorem input_features {B : List (List K)} (hB : IsMat m m B) {e : List K} (he : e.length = m)
    (hc : e = replicate m 0 ∨ InputComplete kinds) :
    ∃ L : List (List K), IsMat (kinds.map fun o => o.dim r m).sum (kinds.map fun o => o.dim r m).sum L ∧
      ∀ (q : List K) (u : Option (List K)), q.length = r → (∀ o ∈ kinds, InputOK o m u) →
        matVec L (dataVector kinds q (u.getD [])) = dataVector kinds q ((affineInput B e u).getD []) := by
  have hv : ∀ u : Option (List K), (∀ o ∈ kinds, InputOK o m u) → ∀ o ∈ kinds, InputOK o m (affineInput B e u) :=
    fun u hu o ho => affineInput_ok hB.1 he (hu o ho)
  refine spanned_matrix (F := fun q u => dataVector kinds q ((affineInput B e u).getD [])) (fun k hk => ?_) fun q u hq hu =>
    dataVector_length kinds hq (hv u hu)
  obtain ⟨o, ho, j, hj, E⟩ := position_entry (K := K) hk
  exact (spanned_input hB he hc ho hj).congr fun q u hq hu => (E q _ hq (hv u hu)).symm

/-- The inverse change of coordinates is of the same form. -/
theorem affineInput_inverse {B U : List (List K)} (h : Inverts m B U) {e : List K} (he : e.length = m) {u : List K}
    (hu : u.length = m) : affineMap U ((matVec U e).map (-·)) (affineMap B e u) = u := by
  rw [affineMap, affineMap, matVec_vadd U _ _ (by rw [length_matVec, h.isMat.1, he]), h.left u hu]
  exact vadd_neg_cancel (by rw [hu, length_matVec, h.isMat'.1])

end

end Opinf
