import Verif.Lemmas.OpStack
import Verif.Lemmas.Kron
import Mathlib.Algebra.MvPolynomial.Funext
import Mathlib.Data.Finsupp.Multiset

/-!
# Distinct monomials are linearly independent

The entries of a data vector are distinct monomials in the entries of the state and the input, so over an infinite
field a linear combination of them that vanishes everywhere has coefficients zero.
-/

namespace Opinf

open List

variable {K : Type}

/-- A product of variables is the monomial of the multiset of their indices. -/
theorem eval_monomial_list [Field K] (x : Nat → K) (l : List Nat) (a : K) :
    MvPolynomial.eval x (MvPolynomial.monomial (Multiset.toFinsupp (l : Multiset Nat)) a) = a * (l.map x).prod := by
  induction l generalizing a with
  | nil => simp
  | cons i l ih =>
    have h : (MvPolynomial.monomial (Multiset.toFinsupp ((i :: l : List Nat) : Multiset Nat)) a : MvPolynomial Nat K) =
        MvPolynomial.X i * MvPolynomial.monomial (Multiset.toFinsupp (l : Multiset Nat)) a := by
      rw [← Multiset.cons_coe, ← Multiset.singleton_add, Multiset.toFinsupp_add, Multiset.toFinsupp_singleton,
        MvPolynomial.X, MvPolynomial.monomial_mul, one_mul]
    rw [h, map_mul, MvPolynomial.eval_X, ih, map_cons, prod_cons]
    ring

/-- The polynomial with the coefficients `c` at the monomials `L`. -/
noncomputable def polyOf [Field K] : List K → List (List Nat) → MvPolynomial Nat K
  | a :: c, l :: L => MvPolynomial.monomial (Multiset.toFinsupp (l : Multiset Nat)) a + polyOf c L
  | _, _ => 0

theorem eval_polyOf [Field K] (x : Nat → K) (c : List K) (L : List (List Nat)) :
    MvPolynomial.eval x (polyOf c L) = dot c (L.map fun l => (l.map x).prod) := by
  induction c generalizing L with
  | nil => simp [polyOf, dot]
  | cons a c ih =>
    cases L with
    | nil => simp [polyOf, dot]
    | cons l L => rw [polyOf, map_add, ih, eval_monomial_list, map_cons]; simp [dot]

theorem coeff_polyOf [Field K] (c : List K) (L : List (List Nat)) (l : List Nat)
    (h : ∀ l' ∈ L, ¬ l'.Perm l) : (polyOf c L).coeff (Multiset.toFinsupp (l : Multiset Nat)) = 0 := by
  induction c generalizing L with
  | nil => simp [polyOf]
  | cons a c ih =>
    cases L with
    | nil => simp [polyOf]
    | cons l' L =>
      rw [polyOf, MvPolynomial.coeff_add, ih L fun y hy => h y (mem_cons_of_mem _ hy), MvPolynomial.coeff_monomial,
        if_neg, add_zero]
      intro e
      exact h l' mem_cons_self (Multiset.coe_eq_coe.1 (Multiset.toFinsupp.injective e))

/-- Distinct monomials, each written with its indices in decreasing order, are linearly independent as functions. -/
theorem monomials_free [Field K] [Infinite K] (L : List (List Nat)) (hL : L.Nodup) (hs : ∀ l ∈ L, l.Pairwise (· ≥ ·))
    (c : List K) (hc : c.length = L.length) (h : ∀ x : Nat → K, dot c (L.map fun l => (l.map x).prod) = 0) :
    ∀ y ∈ c, y = 0 := by
  have h0 : polyOf c L = 0 := MvPolynomial.funext fun x => by rw [eval_polyOf, h, map_zero]
  clear h
  induction c generalizing L with
  | nil => simp
  | cons a c ih =>
    cases L with
    | nil => simp at hc
    | cons l L =>
      obtain ⟨hn, hL'⟩ := nodup_cons.1 hL
      have hz := coeff_polyOf c L l fun l' hl' hp => hn (by
        have := Perm.eq_of_pairwise (fun a b _ _ h1 h2 => le_antisymm h2 h1) (hs l' (mem_cons_of_mem _ hl'))
          (hs l mem_cons_self) hp
        rwa [← this])
      have ha : a = 0 := by
        have := congrArg (MvPolynomial.coeff (Multiset.toFinsupp (l : Multiset Nat))) h0
        rwa [polyOf, MvPolynomial.coeff_add, hz, add_zero, MvPolynomial.coeff_monomial, if_pos rfl,
          MvPolynomial.coeff_zero] at this
      subst ha
      rw [polyOf, map_zero, zero_add] at h0
      intro y hy
      rcases mem_cons.1 hy with rfl | hy
      · rfl
      · exact ih L hL' (fun l hl => hs l (mem_cons_of_mem _ hl)) (by simpa using hc) h0 y hy

/-- The monomials of an operator: the indices of the state entries are `0, …, r - 1`, those of the inputs are
`r, …, r + m - 1`. -/
def OpKind.terms (r m : Nat) : OpKind → List (List Nat)
  | .const => [[]]
  | .lin => (range r).map fun i => [i]
  | .kron k => monoms k.deg r
  | .inp => (range m).map fun j => [r + j]
  | .stateInp => (range m).flatMap fun j => (range r).map fun i => [r + j, i]

/-- The state whose entries are the first `r` variables. -/
def stateAt (r : Nat) (x : Nat → K) : List K := (range r).map x

/-- The input whose entries are the following `m` variables. -/
def inAt (r m : Nat) (x : Nat → K) : List K := (range m).map fun j => x (r + j)

theorem length_stateAt (r : Nat) (x : Nat → K) : (stateAt r x).length = r := by simp [stateAt]

theorem length_inAt (r m : Nat) (x : Nat → K) : (inAt r m x).length = m := by simp [inAt]

theorem mono_stateAt [CommSemiring K] (r : Nat) (x : Nat → K) (l : List Nat) (h : ∀ i ∈ l, i < r) :
    mono (stateAt r x) l = (l.map x).prod := by
  rw [mono]
  congr 1
  refine map_congr_left fun i hi => ?_
  simp [stateAt, getD_eq_getElem?_getD, h i hi]

theorem dataCol_terms [CommSemiring K] (o : OpKind) (r m : Nat) (x : Nat → K) :
    o.dataCol (stateAt r x) (inAt r m x) = (o.terms r m).map fun l => (l.map x).prod := by
  cases o with
  | const => simp [OpKind.dataCol, OpKind.terms]
  | lin => simp [OpKind.dataCol, OpKind.terms, stateAt]
  | kron k =>
    rw [OpKind.dataCol, OpKind.terms, ckron_eq, length_stateAt]
    exact map_congr_left fun l hl => mono_stateAt r x l (mem_monoms.1 hl).2.2
  | inp => simp [OpKind.dataCol, OpKind.terms, inAt]
  | stateInp =>
    simp only [OpKind.dataCol, OpKind.terms, kron, inAt, stateAt, flatMap_map, map_flatMap, map_map]
    refine congrArg (fun f => (range m).flatMap f) (funext fun j => ?_)
    refine map_congr_left fun i _ => ?_
    simp

theorem terms_decreasing (o : OpKind) (r m : Nat) : ∀ l ∈ o.terms r m, l.Pairwise (· ≥ ·) := by
  intro l hl
  cases o with
  | const => simp only [OpKind.terms, mem_singleton] at hl; subst hl; simp
  | lin => obtain ⟨i, _, rfl⟩ := mem_map.1 hl; simp
  | kron k => exact (mem_monoms.1 hl).2.1
  | inp => obtain ⟨i, _, rfl⟩ := mem_map.1 hl; simp
  | stateInp =>
    obtain ⟨j, _, hl⟩ := mem_flatMap.1 hl
    obtain ⟨i, hi, rfl⟩ := mem_map.1 hl
    have := mem_range.1 hi
    simp; omega

theorem terms_nodup (o : OpKind) (r m : Nat) : (o.terms r m).Nodup := by
  cases o with
  | const => simp [OpKind.terms]
  | lin => exact nodup_range.map fun a b h => by simpa using h
  | kron k => exact nodup_monoms _ _
  | inp => exact nodup_range.map fun a b h => by simpa using h
  | stateInp =>
    refine nodup_flatMap.2 ⟨fun j _ => nodup_range.map fun a b h => by simpa using h, ?_⟩
    refine nodup_range.imp fun {a b} hab => ?_
    intro l h1 h2
    obtain ⟨i, _, rfl⟩ := mem_map.1 h1
    obtain ⟨i', _, e⟩ := mem_map.1 h2
    simp at e
    omega

/-- Whether a list of indices is a monomial of the operator can be read off its degree and its leading index. -/
def kindOfTerm (r : Nat) (l : List Nat) : OpKind :=
  match l with
  | [] => .const
  | [i] => if i < r then .lin else .inp
  | [i, _] => if i < r then .kron .quad else .stateInp
  | [_, _, _] => .kron .cubic
  | _ => .kron .quartic

theorem kindOf_terms (o : OpKind) (r m : Nat) : ∀ l ∈ o.terms r m, kindOfTerm r l = o := by
  intro l hl
  cases o with
  | const => simp only [OpKind.terms, mem_singleton] at hl; subst hl; rfl
  | lin => obtain ⟨i, hi, rfl⟩ := mem_map.1 hl; simp [kindOfTerm, mem_range.1 hi]
  | kron k =>
    obtain ⟨h1, _, h2⟩ := mem_monoms.1 hl
    cases k with
    | quad =>
      obtain ⟨a, b, rfl⟩ := length_eq_two.1 (show l.length = 2 from h1)
      simp [kindOfTerm, h2 a (by simp)]
    | cubic =>
      obtain ⟨a, b, c, rfl⟩ := length_eq_three.1 (show l.length = 3 from h1)
      rfl
    | quartic =>
      match l, (show l.length = 4 from h1) with
      | [a, b, c, d], _ => rfl
  | inp => obtain ⟨i, hi, rfl⟩ := mem_map.1 hl; simp [kindOfTerm]
  | stateInp =>
    obtain ⟨j, _, hl⟩ := mem_flatMap.1 hl
    obtain ⟨i, hi, rfl⟩ := mem_map.1 hl
    simp [kindOfTerm]

theorem length_terms (o : OpKind) (r m : Nat) : (o.terms r m).length = o.dim r m := by
  have h := congrArg length (dataCol_terms (K := ℕ) o r m fun _ => 0)
  rw [dataCol_length, length_stateAt, length_inAt, length_map] at h
  exact h.symm

/-- A linear functional that vanishes on the data vectors of all states and inputs is zero. -/
theorem dataVector_free [Field K] [Infinite K] (kinds : List OpKind) (hn : kinds.Nodup) (r m : Nat) (v : List K)
    (hv : v.length = (kinds.map fun o => o.dim r m).sum)
    (h : ∀ q u : List K, q.length = r → u.length = m → dot v (dataVector kinds q u) = 0) : ∀ y ∈ v, y = 0 := by
  refine monomials_free (kinds.flatMap fun o => o.terms r m) ?_ ?_ v ?_ fun x => ?_
  · refine nodup_flatMap.2 ⟨fun o _ => terms_nodup o r m, hn.imp fun {a b} hab l h1 h2 => hab ?_⟩
    rw [← kindOf_terms a r m l h1, kindOf_terms b r m l h2]
  · intro l hl
    obtain ⟨o, _, hl⟩ := mem_flatMap.1 hl
    exact terms_decreasing o r m l hl
  · rw [hv, length_flatMap]
    exact congrArg List.sum (map_congr_left fun o _ => (length_terms o r m).symm)
  · rw [map_flatMap]
    have := h (stateAt r x) (inAt r m x) (length_stateAt r x) (length_inAt r m x)
    simpa only [dataVector, dataCol_terms] using this

end Opinf
