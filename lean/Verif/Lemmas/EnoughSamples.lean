import Verif.Lemmas.MonomialFree
import Mathlib.LinearAlgebra.Basis.VectorSpace
import Mathlib.LinearAlgebra.Dual.Lemmas
import Mathlib.LinearAlgebra.Dimension.Constructions
import Mathlib.LinearAlgebra.FiniteDimensional.Lemmas

/-!
# As many data vectors as columns

Data vectors that span the space: `d` of them suffice if no nonzero linear functional vanishes at all of them, and
fewer never do.
-/

namespace Opinf

open List

variable {K : Type}

/-- A list as a function on `Fin d`. -/
def asFun [Zero K] (d : Nat) (a : List K) : Fin d → K := fun i => a.getD i 0

theorem dot_asFun [Field K] (d : Nat) (a b : List K) (ha : a.length = d) (hb : b.length = d) :
    dot a b = ∑ i, asFun d a i * asFun d b i := by
  induction d generalizing a b with
  | zero =>
    rw [length_eq_zero_iff] at ha
    subst ha
    simp [dot]
  | succ d ih =>
    obtain ⟨x, a, rfl⟩ := exists_cons_of_length_eq_add_one ha
    obtain ⟨y, b, rfl⟩ := exists_cons_of_length_eq_add_one hb
    rw [Fin.sum_univ_succ]
    have := ih a b (by simpa using ha) (by simpa using hb)
    simp only [dot, zipWith_cons_cons, sum_cons] at this ⊢
    rw [this]
    simp [asFun]

theorem asFun_ofFn [Zero K] (d : Nat) (g : Fin d → K) : asFun d (ofFn g) = g := by
  funext i
  simp [asFun, getD_eq_getElem?_getD]

/-- `d` of the data vectors suffice. -/
theorem enough_samples [Field K] {α : Type} (d : Nat) (f : α → List K) (hf : ∀ a, (f a).length = d)
    (h : ∀ v : List K, v.length = d → (∀ a, dot v (f a) = 0) → ∀ y ∈ v, y = 0) :
    ∃ xs : List α, xs.length = d ∧
      ∀ v : List K, v.length = d → (∀ a ∈ xs, dot v (f a) = 0) → ∀ y ∈ v, y = 0 := by
  have top : Submodule.span K (Set.range fun a => asFun d (f a)) = ⊤ := by
    by_contra hne
    obtain ⟨g, hg, hker⟩ := Submodule.exists_le_ker_of_lt_top _ (lt_top_iff_ne_top.2 hne)
    have hgs : ∀ x : Fin d → K, g x = ∑ i, g (Pi.single i 1) * x i := fun x => by
      conv_lhs => rw [← Finset.univ_sum_single x]
      rw [map_sum]
      refine Finset.sum_congr rfl fun i _ => ?_
      have : (Pi.single i (x i) : Fin d → K) = x i • Pi.single i 1 := by
        rw [← Pi.single_smul, smul_eq_mul, mul_one]
      rw [this, map_smul, smul_eq_mul, mul_comm]
    have hz := h (ofFn fun i => g (Pi.single i 1)) (by simp) fun a => by
      rw [dot_asFun d _ _ (by simp) (hf a), asFun_ofFn, ← hgs]
      exact LinearMap.mem_ker.1 (hker (Submodule.subset_span ⟨a, rfl⟩))
    apply hg
    ext i
    exact hz _ (by simp)
  obtain ⟨κ, a, -, hsp, hli⟩ := exists_linearIndependent' K fun a => asFun d (f a)
  rw [top] at hsp
  have : Finite κ := hli.finite
  have : Fintype κ := Fintype.ofFinite κ
  have hcard : Fintype.card κ = d := by
    have b := Module.Basis.mk hli (by rw [hsp])
    have := Module.finrank_eq_card_basis b
    rw [← this, Module.finrank_fin_fun]
  refine ⟨(Finset.univ : Finset κ).toList.map a, by simp [hcard], fun v hv hz => ?_⟩
  refine h v hv fun b => ?_
  rw [dot_asFun d _ _ hv (hf b)]
  let g : (Fin d → K) →ₗ[K] K := ∑ i, asFun d v i • LinearMap.proj i
  have hgx : ∀ x, g x = ∑ i, asFun d v i * x i := fun x => by simp [g]
  have hle : (⊤ : Submodule K (Fin d → K)) ≤ LinearMap.ker g := by
    rw [← hsp, Submodule.span_le]
    rintro _ ⟨k, rfl⟩
    rw [SetLike.mem_coe, LinearMap.mem_ker, hgx]
    have := hz (a k) (mem_map.2 ⟨k, by simp, rfl⟩)
    rwa [dot_asFun d _ _ hv (hf _)] at this
  rw [← hgx]
  exact LinearMap.mem_ker.1 (hle trivial)

/-- Fewer than `d` data vectors never suffice. -/
theorem too_few_samples [Field K] {α : Type} (d : Nat) (f : α → List K) (hf : ∀ a, (f a).length = d) (xs : List α)
    (hxs : xs.length < d) : ∃ v : List K, v.length = d ∧ (∀ a ∈ xs, dot v (f a) = 0) ∧ ∃ y ∈ v, y ≠ 0 := by
  have hne : Submodule.span K (Set.range fun i : Fin xs.length => asFun d (f xs[i])) ≠ ⊤ := by
    intro e
    have := finrank_range_le_card (R := K) fun i : Fin xs.length => asFun d (f xs[i])
    rw [Set.finrank, e, finrank_top, Module.finrank_fin_fun, Fintype.card_fin] at this
    omega
  obtain ⟨g, hg, hker⟩ := Submodule.exists_le_ker_of_lt_top _ (lt_top_iff_ne_top.2 hne)
  have hgs : ∀ x : Fin d → K, g x = ∑ i, g (Pi.single i 1) * x i := fun x => by
    conv_lhs => rw [← Finset.univ_sum_single x]
    rw [map_sum]
    refine Finset.sum_congr rfl fun i _ => ?_
    have : (Pi.single i (x i) : Fin d → K) = x i • Pi.single i 1 := by
      rw [← Pi.single_smul, smul_eq_mul, mul_one]
    rw [this, map_smul, smul_eq_mul, mul_comm]
  refine ⟨ofFn fun i => g (Pi.single i 1), by simp, fun a ha => ?_, ?_⟩
  · obtain ⟨i, hi, rfl⟩ := mem_iff_getElem.1 ha
    rw [dot_asFun d _ _ (by simp) (hf _), asFun_ofFn, ← hgs]
    exact LinearMap.mem_ker.1 (hker (Submodule.subset_span ⟨⟨i, hi⟩, rfl⟩))
  · by_contra hz
    push Not at hz
    apply hg
    ext i
    exact hz _ (by simp)

end Opinf
