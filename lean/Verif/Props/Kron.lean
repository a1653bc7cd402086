import Verif.Lemmas.KronJac
import Verif.Lemmas.Poly
import Verif.Model.Operators
import Mathlib.Algebra.Field.Rat
import Mathlib.Data.Rat.Cast.CharZero
import Mathlib.Tactic.NormNum

/-!
# Properties of the quadratic, cubic, quartic and polynomial operators

C01 (compression keeps the action), C02 (compress/expand consistent), C04 (Jacobians, Kronecker
part), C05 (cached Jacobian never stale), C07 (PolynomialOperator), C08 (dimensions).
-/

namespace Opinf

open List

variable {K : Type*}

/-! ## Specification vocabulary -/

/-- Specification: the full Kronecker product `q ⊗ q`, `q ⊗ q ⊗ q`, `q ⊗ q ⊗ q ⊗ q`. -/
def kronProd [Mul K] : Kind → List K → List K
  | .quad, q => kron q q
  | .cubic, q => kron q (kron q q)
  | .quartic, q => kron q (kron q (kron q q))

/-- Specification: a full row is symmetric in its state slots, i.e. its entry at an index tuple
only depends on the tuple up to rearrangement. -/
def SymRow [Zero K] (p r : Nat) (h : List K) : Prop :=
  ∀ s t : List Nat, s.length = p → (∀ i ∈ s, i < r) → s.Perm t →
    h.getD (flat r s) 0 = h.getD (flat r t) 0

theorem kronProd_eq [CommSemiring K] (k : Kind) (q : List K) : kronProd k q = kronPow q k.deg := by
  have h1 : kron q [(1 : K)] = q := by simp [kron]
  cases k <;> simp [kronProd, kronPow, Kind.deg, h1]

theorem mono_eq_prod [CommSemiring K] (q : List K) (l : List Nat) :
    (l.map fun i => q.getD i 0).prod = mono q l := rfl

/-! ## Normal forms used below -/

/-- Entries as stored after `set_entries`. -/
def Stored (k : Kind) (E : Mat K) : Prop := E.WF ∧ E.ncols = k.dim E.nrows

theorem setEntries_cases [AddCommMonoid K] (k : Kind) (P : Option (Mat K)) (J : Option (List (List K)))
    (E : Mat K) (hE : E.WF) :
    (E.ncols = E.nrows ^ k.deg ∧ (⟨k, P, J⟩ : KronOp K).setEntries E
        = .ok ⟨k, some ⟨E.nrows, k.dim E.nrows, E.rows.map (k.compressRow E.nrows)⟩, none⟩ ∧
        Stored k ⟨E.nrows, k.dim E.nrows, E.rows.map (k.compressRow E.nrows)⟩) ∨
    (E.ncols ≠ E.nrows ^ k.deg ∧ E.ncols = k.dim E.nrows ∧
      (⟨k, P, J⟩ : KronOp K).setEntries E = .ok ⟨k, some E, none⟩ ∧ Stored k E) ∨
    (E.ncols ≠ E.nrows ^ k.deg ∧ E.ncols ≠ k.dim E.nrows ∧
      (⟨k, P, J⟩ : KronOp K).setEntries E = .error .value) := by
  by_cases h1 : E.ncols = E.nrows ^ k.deg
  · left
    refine ⟨h1, ?_, ?_⟩
    · simp only [KronOp.setEntries, h1, if_true, Kind.compress, exactRoot_pow (deg_pos k).ne']
      rfl
    · refine ⟨⟨by simpa using hE.1, ?_⟩, rfl⟩
      intro row hrow
      simp only [mem_map] at hrow
      obtain ⟨row', -, rfl⟩ := hrow
      rw [compressRow_eq, length_map, dim_eq_length]
  · right
    by_cases h2 : E.ncols = k.dim E.nrows
    · left
      refine ⟨h1, h2, ?_, hE, h2⟩
      unfold KronOp.setEntries
      simp only
      rw [if_neg h1, if_neg (not_not.mpr h2)]
    · right
      refine ⟨h1, h2, ?_⟩
      unfold KronOp.setEntries
      simp only
      rw [if_neg h1, if_pos h2]

/-- `apply` of an operator with stored entries is `entries @ ckron(q)`, also for `r = 1`. -/
theorem apply_stored [CommSemiring K] (k : Kind) (E : Mat K) (J : Option (List (List K)))
    (hE : Stored k E) (q : List K) (hq : q.length = E.nrows) :
    (⟨k, some E, J⟩ : KronOp K).apply q = .ok (matVec E.rows (k.ckron q)) := by
  obtain ⟨⟨hlen, hrow⟩, hc⟩ := hE
  unfold KronOp.apply
  simp only
  by_cases h1 : E.nrows = 1
  · rw [if_pos h1]
    rw [h1] at hlen hq hc
    obtain ⟨x, rfl⟩ := length_eq_one_iff.mp hq
    obtain ⟨row, hr⟩ := length_eq_one_iff.mp hlen
    have hrl : row.length = 1 := by
      rw [hrow row (by rw [hr]; simp), hc]; cases k <;> rfl
    obtain ⟨e, rfl⟩ := length_eq_one_iff.mp hrl
    rw [hr]
    cases k
    · simp [Kind.deg, matVec, dot, Kind.ckron, ckron2]; ring
    · simp [Kind.deg, matVec, dot, Kind.ckron, ckron2, ckron3]; ring
    · simp [Kind.deg, matVec, dot, Kind.ckron, ckron2, ckron3, ckron4]; ring
  · rw [if_neg h1, if_neg (by omega)]
    rw [ckron_eq, hq, indices_eq]
    rfl

/-! ## C01 -/

/-- **C01.** Assigning full `r × r^p` entries (symmetric or not) to a quadratic, cubic or quartic
operator succeeds, and the operator then maps every state `q` to `entries @ (q ⊗ ... ⊗ q)`. -/
theorem C01_full_entries_action [CommSemiring K] (k : Kind) (E : Mat K) (hE : E.WF)
    (hfull : E.ncols = E.nrows ^ k.deg) (q : List K) (hq : q.length = E.nrows) :
    ∃ op : KronOp K, (KronOp.empty k).setEntries E = .ok op ∧
      op.apply q = .ok (matVec E.rows (kronProd k q)) := by
  rcases setEntries_cases k none none E hE with ⟨-, hs, hst⟩ | ⟨h, -⟩ | ⟨h, -⟩
  · refine ⟨_, hs, ?_⟩
    rw [apply_stored k _ none hst q hq]
    congr 1
    simp only [matVec, map_map]
    apply map_congr_left
    intro row hrow
    simp only [Function.comp]
    rw [compressRow_eq, ckron_eq, kronProd_eq, hq]
    exact dot_compress k.deg E.nrows row q (by rw [hE.2 row hrow, hfull]) hq
  · exact absurd hfull h
  · exact absurd hfull h

/-- **C01, compressed entries.** Assigning entries of the compressed width keeps them as they are
and the operator maps `q` to `entries @ ckron(q)`; the entries of `ckron(q)` are the products
`q[i]*q[j]*...` over the decreasing index tuples. -/
theorem C01_compressed_entries_action [CommSemiring K] (k : Kind) (E : Mat K) (hE : E.WF)
    (hcomp : E.ncols = k.dim E.nrows) (hr : E.ncols ≠ E.nrows ^ k.deg)
    (q : List K) (hq : q.length = E.nrows) :
    ∃ op : KronOp K, (KronOp.empty k).setEntries E = .ok op ∧ op.entries = some E ∧
      op.apply q = .ok (matVec E.rows (k.ckron q)) := by
  rcases setEntries_cases k none none E hE with ⟨h, -⟩ | ⟨-, -, hs, hst⟩ | ⟨-, h, -⟩
  · exact absurd h hr
  · exact ⟨_, hs, rfl, apply_stored k E none hst q hq⟩
  · exact absurd hcomp h

/-- **C01, error branch.** Any other width is rejected with `ValueError`. -/
theorem C01_other_widths_rejected [CommSemiring K] (k : Kind) (E : Mat K) (hE : E.WF) :
    (KronOp.empty k).setEntries E = .error .value ↔
      E.ncols ≠ E.nrows ^ k.deg ∧ E.ncols ≠ k.dim E.nrows := by
  rcases setEntries_cases k none none E hE with ⟨h, hs, -⟩ | ⟨-, h, hs, -⟩ | ⟨h1, h2, hs⟩
  · simp only [KronOp.empty, hs, h]; simp
  · simp only [KronOp.empty, hs, h]; simp
  · simp only [KronOp.empty, hs, true_iff]; exact ⟨h1, h2⟩

-- a non-symmetric full 2 x 4 quadratic matrix, and a state
example : (⟨2, 4, [[1, 2, 3, 4], [0, 5, -1, 7]]⟩ : Mat ℚ).WF := by decide
example : ((KronOp.empty .quad).setEntries (⟨2, 4, [[1, 2, 3, 4], [0, 5, -1, 7]]⟩ : Mat ℚ)
    >>= fun op => op.apply [2, 3]) = .ok [4 + 5 * 6 + 4 * 9, 4 * 6 + 7 * 9] := by decide +kernel

/-! ## C02 -/

/-- **C02, first half.** `compress_entries(expand_entries(Hc))` returns `Hc`, whatever the
uninitialised memory of `np.empty` contained. -/
theorem C02_compress_expand [Field K] [CharZero K] (k : Kind) (junk : K) (Hc : Mat K)
    (hw : Hc.WF) (r : Nat) (hr : Hc.ncols = k.dim r) :
    ∃ H : Mat K, k.expand junk Hc = .ok H ∧ H.WF ∧ H.nrows = Hc.nrows ∧ H.ncols = r ^ k.deg ∧
      k.compress H = .ok Hc := by
  refine ⟨⟨Hc.nrows, r ^ k.deg, Hc.rows.map fun hc =>
    scatter (replicate (r ^ k.deg) junk) (k.expandWrites r hc)⟩, ?_, ?_, rfl, rfl, ?_⟩
  · rw [Kind.expand, hr, rOfDim_dim]
  · refine ⟨by simpa using hw.1, ?_⟩
    intro row hrow
    simp only [mem_map] at hrow
    obtain ⟨row', -, rfl⟩ := hrow
    simp [length_scatter]
  · simp only [Kind.compress, exactRoot_pow (deg_pos k).ne', map_map]
    have : Hc.rows.map (k.compressRow r ∘ fun hc =>
        scatter (replicate (r ^ k.deg) junk) (k.expandWrites r hc)) = Hc.rows := by
      conv_rhs => rw [← map_id Hc.rows]
      apply map_congr_left
      intro row hrow
      have hl : row.length = k.dim r := by rw [hw.2 row hrow, hr]
      simp only [Function.comp, id]
      rw [expandRow_eq k r row junk hl, compress_expand_row k r row hl]
    rw [this, ← hr]

/-- **C02, second half.** `expand_entries(compress_entries(H))` acts like `H` on every
`q ⊗ ... ⊗ q`, every row of it is symmetric in the state slots, and if `H` was already symmetric
it is `H` itself. -/
theorem C02_expand_compress [Field K] [CharZero K] (k : Kind) (junk : K) (H : Mat K)
    (hw : H.WF) (r : Nat) (hr : H.ncols = r ^ k.deg) :
    ∃ Hc H' : Mat K, k.compress H = .ok Hc ∧ k.expand junk Hc = .ok H' ∧
      (∀ q : List K, q.length = r →
        matVec H'.rows (kronProd k q) = matVec H.rows (kronProd k q)) ∧
      (∀ row ∈ H'.rows, SymRow k.deg r row) ∧
      ((∀ row ∈ H.rows, SymRow k.deg r row) → H' = H) := by
  set Hc : Mat K := ⟨H.nrows, k.dim r, H.rows.map (k.compressRow r)⟩ with hHc
  have hcw : Hc.WF := by
    refine ⟨by simpa [hHc] using hw.1, ?_⟩
    intro row hrow
    simp only [hHc, mem_map] at hrow
    obtain ⟨row', -, rfl⟩ := hrow
    show _ = k.dim r
    rw [compressRow_eq, length_map, dim_eq_length]
  have hcl : ∀ row, (k.compressRow r row : List K).length = k.dim r := by
    intro row; rw [compressRow_eq, length_map, dim_eq_length]
  set H' : Mat K := ⟨H.nrows, r ^ k.deg, Hc.rows.map fun hc =>
    scatter (replicate (r ^ k.deg) junk) (k.expandWrites r hc)⟩ with hH'
  have hrows : H'.rows = H.rows.map fun row => (tuples k.deg r).map fun s =>
      coef k.deg r (k.compressRow r row) (srt s) / (nperm s : K) := by
    simp only [hH', hHc, map_map]
    apply map_congr_left; intro row _
    simp only [Function.comp]
    rw [expandRow_eq k r _ junk (hcl row)]
  refine ⟨Hc, H', ?_, ?_, ?_, ?_, ?_⟩
  · rw [Kind.compress, hr, exactRoot_pow (deg_pos k).ne']
  · rw [Kind.expand, hHc, rOfDim_dim]
  · intro q hq
    rw [hrows]
    simp only [matVec, map_map]
    apply map_congr_left
    intro row hrow
    simp only [Function.comp]
    rw [kronProd_eq, ← dot_compress k.deg r _ q (by simp [length_tuples]) hq,
      ← dot_compress k.deg r row q (by rw [hw.2 row hrow, hr]) hq,
      ← compressRow_eq, ← compressRow_eq, compress_expand_row k r _ (hcl row)]
  · intro row hrow s t hs hsr hst
    rw [hrows, mem_map] at hrow
    obtain ⟨row', -, rfl⟩ := hrow
    have h1 : s ∈ tuples k.deg r := mem_tuples.mpr ⟨hs, hsr⟩
    have h2 : t ∈ tuples k.deg r :=
      mem_tuples.mpr ⟨by rw [← hst.length_eq, hs], fun i hi => hsr i (hst.mem_iff.mpr hi)⟩
    rw [tuples_getD _ _ _ h1, tuples_getD _ _ _ h2, srt_congr hst, nperm_congr hst]
  · intro hsym
    have : H'.rows = H.rows := by
      rw [hrows]
      conv_rhs => rw [← map_id H.rows]
      apply map_congr_left
      intro row hrow
      have hl : row.length = r ^ k.deg := by rw [hw.2 row hrow, hr]
      conv_rhs => rw [id, row_eq_tuples k.deg r row hl]
      apply map_congr_left
      intro s hs
      have hsm : srt s ∈ monoms k.deg r := by
        rw [mem_monoms]
        have := mem_tuples.mp hs
        exact ⟨by rw [(srt_perm s).length_eq, this.1], pairwise_insertionSort _ _,
          fun x hx => this.2 x ((srt_perm s).mem_iff.mp hx)⟩
      have hc : coef k.deg r (k.compressRow r row) (srt s)
          = nperm s * row.getD (flat r s) 0 := by
        rw [compressRow_eq, coef]
        have hi := idxOf_lt_length_of_mem hsm
        simp only [getD_eq_getElem?_getD, getElem?_map, getElem?_eq_getElem hi, Option.map_some,
          Option.getD_some, getElem_idxOf]
        rw [sum_const_map _ _ (row.getD (flat r s) 0)]
        · change (nperm (srt s) : K) * _ = _
          rw [nperm_congr (srt_perm s), getD_eq_getElem?_getD]
        · intro t ht
          rw [mem_permSet] at ht
          have := hsym row hrow s t (mem_tuples.mp hs).1 (mem_tuples.mp hs).2
            ((srt_perm s).symm.trans ht.symm)
          rw [this, getD_eq_getElem?_getD]
      have hn : (nperm s : K) ≠ 0 := by
        have := nperm_pos s
        exact_mod_cast this.ne'
      rw [hc, mul_comm, mul_div_assoc, div_self hn, mul_one]
    have hn : H' = ⟨H.nrows, H.ncols, H'.rows⟩ := by rw [hr]
    rw [hn, this]

/-- **C02, error branches.** `expand_entries` raises `ValueError` exactly when the column count is
not `operator_dimension(r)` for any `r`; `compress_entries` exactly when it is not an exact power. -/
theorem C02_errors [Field K] (k : Kind) (junk : K) (M : Mat K) :
    (k.expand junk M = .error .value ↔ ∀ r, M.ncols ≠ k.dim r) ∧
    (k.compress M = .error .value ↔ ∀ r, M.ncols ≠ r ^ k.deg) := by
  constructor
  · unfold Kind.expand
    cases h : k.rOfDim M.ncols with
    | none =>
      simp only [true_iff]
      intro r hr
      rw [hr, rOfDim_dim] at h
      exact absurd h (by simp)
    | some r =>
      simp only [reduceCtorEq, false_iff, not_forall, not_not]
      exact ⟨r, (rOfDim_some h).symm⟩
  · unfold Kind.compress
    cases h : exactRoot k.deg M.ncols with
    | none =>
      simp only [true_iff]
      intro r hr
      rw [hr, exactRoot_pow (deg_pos k).ne'] at h
      exact absurd h (by simp)
    | some r =>
      simp only [reduceCtorEq, false_iff, not_forall, not_not]
      exact ⟨r, (exactRoot_some h).symm⟩

example : (⟨1, 3, [[1, 6, 5]]⟩ : Mat ℚ).WF ∧ (⟨1, 3, [[1, 6, 5]]⟩ : Mat ℚ).ncols = Kind.quad.dim 2 := by
  decide
example : Kind.quad.expand (99 : ℚ) ⟨1, 3, [[1, 6, 5]]⟩ = .ok ⟨1, 4, [[1, 3, 3, 5]]⟩ := by
  decide +kernel
example : Kind.quad.compress (⟨1, 4, [[1, 2, 4, 5]]⟩ : Mat ℚ) = .ok ⟨1, 3, [[1, 6, 5]]⟩ := by
  decide +kernel
example : SymRow (K := ℚ) 2 2 [1, 3, 3, 5] := by
  intro s t hs hb hp
  have : s ∈ tuples 2 2 := mem_tuples.mpr ⟨hs, hb⟩
  have ht : t ∈ tuples 2 2 := mem_tuples.mpr
    ⟨by rw [← hp.length_eq, hs], fun x hx => hb x (hp.mem_iff.mpr hx)⟩
  revert hp
  have h := (by decide +kernel : ∀ s ∈ tuples 2 2, ∀ t ∈ tuples 2 2, s.Perm t →
    ([1, 3, 3, 5] : List ℚ).getD (flat 2 s) 0 = ([1, 3, 3, 5] : List ℚ).getD (flat 2 t) 0)
  exact h s this t ht

/-! ## C04 (Kronecker operators) -/

theorem precompute_stored [Field K] [CharZero K] (junk : K) (k : Kind) (E : Mat K)
    (hE : Stored k E) :
    KronOp.precompute junk k E = .ok (E.rows.map fun row => k.prejacRow E.nrows
      ((tuples k.deg E.nrows).map fun s => coef k.deg E.nrows row (srt s) / (nperm s : K))) := by
  unfold KronOp.precompute Kind.expand
  rw [hE.2, rOfDim_dim]
  simp only [bind, Except.bind, pure, Except.pure, map_map]
  congr 1
  apply map_congr_left
  intro row hrow
  simp only [Function.comp]
  rw [expandRow_eq k E.nrows row junk (by rw [hE.1.2 row hrow, hE.2])]

/-- **C04 (Kronecker operators).** For stored entries, a state `q` and a direction `d`, `jacobian`
returns an `r × r` matrix `J` such that, for one fixed set of coefficient vectors and *every* step
`h`, `apply(q + h d) = apply(q) + h J d + h² R₂ + h³ R₃ + h⁴ R₄`. -/
theorem C04_kron_jacobian_is_derivative [Field K] [CharZero K] (k : Kind) (junk : K) (E : Mat K)
    (hE : Stored k E) (q d : List K) (hq : q.length = E.nrows) (hd : d.length = E.nrows) :
    ∃ J : List (List K), ((⟨k, some E, none⟩ : KronOp K).jacobian junk q).1 = .ok J ∧
      J.length = E.nrows ∧ (∀ row ∈ J, row.length = E.nrows) ∧
      ∃ R2 R3 R4 : List K, R2.length = E.nrows ∧ R3.length = E.nrows ∧ R4.length = E.nrows ∧
        ∀ h : K, ∃ a0 a1 : List K,
          (⟨k, some E, none⟩ : KronOp K).apply q = .ok a0 ∧
          (⟨k, some E, none⟩ : KronOp K).apply (vadd q (vsmul h d)) = .ok a1 ∧
          a1 = vadd (vadd (vadd (vadd a0 (vsmul h (matVec J d))) (vsmul (h ^ 2) R2))
            (vsmul (h ^ 3) R3)) (vsmul (h ^ 4) R4) := by
  set full : List K → List K := fun row =>
    (tuples k.deg E.nrows).map fun s => coef k.deg E.nrows row (srt s) / (nperm s : K) with hfull
  have hfl : ∀ row, (full row).length = E.nrows ^ k.deg := by
    intro row; simp [hfull, length_tuples]
  have hact : ∀ row ∈ E.rows, ∀ x : List K, x.length = E.nrows →
      dot row (k.ckron x) = dot (full row) (kronPow x k.deg) := by
    intro row hrow x hx
    have hl : row.length = k.dim E.nrows := by rw [hE.1.2 row hrow, hE.2]
    rw [← dot_compress k.deg E.nrows (full row) x (hfl row) hx, ← compressRow_eq,
      compress_expand_row k E.nrows row hl, ckron_eq, hx]
  have hx : ∀ h : K, (vadd q (vsmul h d)).length = E.nrows := by
    intro h; simp [vadd, vsmul, hq, hd]
  have hT := fun row => jacRow_taylor k E.nrows (full row) q d (hfl row) hq hd
  choose R2 R3 R4 hR using hT
  refine ⟨E.rows.map fun row => jacRow k E.nrows (full row) q, ?_, by simpa using hE.1.1, ?_,
    E.rows.map R2, E.rows.map R3, E.rows.map R4, by simpa using hE.1.1, by simpa using hE.1.1,
    by simpa using hE.1.1, ?_⟩
  · unfold KronOp.jacobian
    simp only [precompute_stored junk k E hE, hq, ne_eq, not_true_eq_false, if_false, map_map]
    rfl
  · intro row hrow
    simp only [mem_map] at hrow
    obtain ⟨row', -, rfl⟩ := hrow
    exact length_jacRow k _ _ q hq
  · intro h
    refine ⟨_, _, apply_stored k E none hE q hq, apply_stored k E none hE _ (hx h), ?_⟩
    generalize hy : vadd q (vsmul h d) = y
    simp only [matVec, vadd, vsmul, map_map, zipWith_map, zipWith_self]
    apply map_congr_left
    intro row hrow
    simp only [Function.comp]
    rw [← hy, hact row hrow _ (hx h), hact row hrow q hq]
    exact hR row h

/-- **C04, error branches.** Without entries `jacobian` raises `AttributeError`; a state of the
wrong length raises `ValueError`. -/
theorem C04_kron_jacobian_errors [Field K] [CharZero K] (k : Kind) (junk : K)
    (J : Option (List (List K))) (E : Mat K) (hE : Stored k E) (q : List K)
    (hq : q.length ≠ E.nrows) :
    ((⟨k, none, J⟩ : KronOp K).jacobian junk q).1 = .error .attribute ∧
    ((⟨k, some E, none⟩ : KronOp K).jacobian junk q).1 = .error .value := by
  constructor
  · rfl
  · unfold KronOp.jacobian
    simp only [precompute_stored junk k E hE, ne_eq, hq, not_false_eq_true, if_true]

example : Stored Kind.cubic (⟨2, 4, [[1, 2, 3, 4], [5, 6, 7, 8]]⟩ : Mat ℚ) := by
  unfold Stored; decide
example : ((⟨.cubic, some ⟨2, 4, [[1, 2, 3, 4], [0, 0, 0, 1]]⟩, none⟩ : KronOp ℚ).jacobian 7 [2, 3]).1
    = .ok [[3 * 4 + 2 * 2 * 2 * 3 + 3 * 9, 2 * 4 + 3 * 2 * 2 * 3 + 4 * 3 * 9], [0, 3 * 9]] := by
  decide +kernel

/-! ## C05 -/

/-- Public operations on a quadratic/cubic/quartic operator object. -/
inductive KronAct (K : Type*)
  | set (E : Mat K)                    -- `op.entries = E` / `op.set_entries(E)`
  | del                                -- `del op.entries`
  | jac (junk : K) (q : List K)        -- `op.jacobian(q)`
  | app (q : List K)                   -- `op.apply(q)`

/-- The effect of one operation on the object (a raised exception leaves what was already done). -/
def KronAct.step [Field K] (op : KronOp K) : KronAct K → KronOp K
  | .set E => match op.setEntries E with
      | .ok op' => op'
      | .error _ => op
  | .del => KronOp.empty op.kind
  | .jac junk q => (op.jacobian junk q).2
  | .app _ => op

/-- Specification: the entries the user last assigned successfully (as given, not compressed). -/
def specEntries (k : Kind) (cur : Option (Mat K)) : KronAct K → Option (Mat K)
  | .set E => if E.ncols = E.nrows ^ k.deg ∨ E.ncols = k.dim E.nrows then some E else cur
  | .del => none
  | .jac _ _ => cur
  | .app _ => cur

/-- All assigned arrays are proper arrays. -/
def KronAct.WF : KronAct K → Prop
  | .set E => E.WF
  | _ => True

/-- What the history must establish: the object behaves like a fresh one with the last entries. -/
def FreshLike [Field K] (k : Kind) (op : KronOp K) (last : Option (Mat K)) : Prop :=
  op.kind = k ∧
  match last with
  | none => op.entries = none
  | some E => ∃ C : Mat K, op.entries = some C ∧ Stored k C ∧
      (KronOp.empty k).setEntries E = .ok ⟨k, some C, none⟩ ∧
      (op.prejac = none ∨ ∃ junk, KronOp.precompute junk k C = .ok (op.prejac.getD []))

theorem freshLike_step [Field K] [CharZero K] (k : Kind) (op : KronOp K) (last : Option (Mat K))
    (h : FreshLike k op last) (a : KronAct K) (ha : a.WF) :
    FreshLike k (KronAct.step op a) (specEntries k last a) := by
  obtain ⟨hk, h⟩ := h
  obtain ⟨k', P, J⟩ := op
  simp only at hk
  subst hk
  cases a with
  | set E =>
    simp only [KronAct.step, specEntries]
    rcases setEntries_cases k' P J E ha with ⟨h1, hs, hst⟩ | ⟨h1, h2, hs, hst⟩ | ⟨h1, h2, hs⟩
    · simp only [hs, h1, true_or, if_true]
      refine ⟨rfl, _, rfl, hst, ?_, Or.inl rfl⟩
      rcases setEntries_cases k' none none E ha with ⟨-, hs', -⟩ | ⟨h, -⟩ | ⟨h, -⟩
      · exact hs'
      · exact absurd h1 h
      · exact absurd h1 h
    · simp only [hs, h2, or_true, if_true]
      refine ⟨rfl, _, rfl, hst, ?_, Or.inl rfl⟩
      rcases setEntries_cases k' none none E ha with ⟨h, -⟩ | ⟨-, -, hs', -⟩ | ⟨-, h, -⟩
      · exact absurd h h1
      · exact hs'
      · exact absurd h2 h
    · simp only [hs, h1, h2, or_self, if_false]
      exact ⟨rfl, h⟩
  | del => exact ⟨rfl, rfl⟩
  | jac junk q =>
    simp only [KronAct.step, specEntries]
    cases last with
    | none =>
      simp only at h
      subst h
      exact ⟨rfl, rfl⟩
    | some E =>
      obtain ⟨C, hC, hst, hset, hp⟩ := h
      simp only at hC
      subst hC
      unfold KronOp.jacobian
      simp only
      rcases hp with hp | ⟨junk', hp⟩
      · simp only at hp
        subst hp
        simp only [precompute_stored junk k' C hst]
        split
        · exact ⟨rfl, C, rfl, hst, hset, Or.inr ⟨junk, by
            rw [precompute_stored junk k' C hst]; rfl⟩⟩
        · exact ⟨rfl, C, rfl, hst, hset, Or.inr ⟨junk, by
            rw [precompute_stored junk k' C hst]; rfl⟩⟩
      · cases J with
        | none =>
          simp only [precompute_stored junk k' C hst]
          split
          · exact ⟨rfl, C, rfl, hst, hset, Or.inr ⟨junk, by
              rw [precompute_stored junk k' C hst]; rfl⟩⟩
          · exact ⟨rfl, C, rfl, hst, hset, Or.inr ⟨junk, by
              rw [precompute_stored junk k' C hst]; rfl⟩⟩
        | some P =>
          simp only
          split
          · exact ⟨rfl, C, rfl, hst, hset, Or.inr ⟨junk', hp⟩⟩
          · exact ⟨rfl, C, rfl, hst, hset, Or.inr ⟨junk', hp⟩⟩
  | app q => exact ⟨rfl, h⟩

theorem freshLike_run [Field K] [CharZero K] (k : Kind) (hist : List (KronAct K))
    (hwf : ∀ a ∈ hist, a.WF) (op : KronOp K) (last : Option (Mat K)) (h : FreshLike k op last) :
    FreshLike k (hist.foldl KronAct.step op) (hist.foldl (specEntries k) last) := by
  induction hist generalizing op last with
  | nil => exact h
  | cons a hist ih =>
    exact ih (fun b hb => hwf b (mem_cons_of_mem _ hb)) _ _
      (freshLike_step k op last h a (hwf a mem_cons_self))

/-- **C05.** After every history of assigning entries (valid or rejected), deleting them,
evaluating Jacobians (successfully or not) and applying the operator, `jacobian(q)` and `apply(q)`
return exactly what a freshly constructed operator with the last accepted entries returns; if there
are no entries, both raise `AttributeError`. -/
theorem C05_jacobian_cache_never_stale [Field K] [CharZero K] (k : Kind)
    (hist : List (KronAct K)) (hwf : ∀ a ∈ hist, a.WF) (junk junk' : K) (q : List K) :
    match hist.foldl (specEntries k) none with
    | none =>
        ((hist.foldl KronAct.step (KronOp.empty k)).jacobian junk q).1 = .error .attribute ∧
        (hist.foldl KronAct.step (KronOp.empty k)).apply q = .error .attribute
    | some E => ∃ fresh : KronOp K, (KronOp.empty k).setEntries E = .ok fresh ∧
        ((hist.foldl KronAct.step (KronOp.empty k)).jacobian junk q).1
          = (fresh.jacobian junk' q).1 ∧
        (hist.foldl KronAct.step (KronOp.empty k)).apply q = fresh.apply q := by
  have h := freshLike_run k hist hwf (KronOp.empty k) none ⟨rfl, rfl⟩
  generalize hist.foldl KronAct.step (KronOp.empty k) = op at h
  generalize hist.foldl (specEntries k) none = last at h
  obtain ⟨k', P, J⟩ := op
  obtain ⟨hk, h⟩ := h
  simp only at hk
  subst hk
  cases last with
  | none =>
    simp only at h
    subst h
    exact ⟨rfl, rfl⟩
  | some E =>
    obtain ⟨C, hC, hst, hset, hp⟩ := h
    simp only at hC
    subst hC
    refine ⟨_, hset, ?_, rfl⟩
    unfold KronOp.jacobian
    simp only [precompute_stored junk' k' C hst]
    cases J with
    | none => simp only [precompute_stored junk k' C hst]
    | some P =>
      rcases hp with hp | ⟨j, hp⟩
      · simp at hp
      · simp only [Option.getD_some] at hp
        rw [precompute_stored j k' C hst] at hp
        simp only [Except.ok.injEq] at hp
        subst hp
        simp only

/-- Changing the array returned by `op.entries` in place (`op.entries[i, j] = x`) does not go
through the setter: the stored entries change, the cached pre-Jacobian does not. -/
def KronOp.mutateInPlace (op : KronOp K) (E : Mat K) : KronOp K := { op with entries := some E }

/-- **C05, limit of the property.** It does not extend to in-place changes of the entries array:
after `jacobian`, an in-place change makes the next `jacobian` disagree with a fresh operator that
has the current entries. -/
theorem C05_inplace_mutation_goes_stale :
    ∃ (E E' : Mat ℚ) (op : KronOp ℚ) (q : List ℚ), E.WF ∧ E'.WF ∧
      (KronOp.empty .quad).setEntries E = .ok op ∧
      (((op.jacobian 0 q).2.mutateInPlace E').jacobian 0 q).1
        ≠ ((⟨.quad, some E', none⟩ : KronOp ℚ).jacobian 0 q).1 :=
  ⟨⟨1, 1, [[1]]⟩, ⟨1, 1, [[5]]⟩, ⟨.quad, some ⟨1, 1, [[1]]⟩, none⟩, [1],
    by decide, by decide, by decide +kernel, by decide +kernel⟩

-- a history with a cached Jacobian, a rejected and an accepted assignment
example : ∀ a ∈ ([.set ⟨1, 1, [[2]]⟩, .jac 9 [3], .set ⟨1, 5, [[2, 2, 2, 2, 2]]⟩,
    .set ⟨2, 3, [[1, 2, 3], [4, 5, 6]]⟩, .app [1]] : List (KronAct ℚ)), a.WF := by
  simp [KronAct.WF, Mat.WF]

/-! ## C07, C08 -/

/-- **C08.** `operator_dimension(r)` is the binomial coefficient `C(r+p-1, p)`, it is the number of
rows of the data block, and the state dimension recovered from a compressed column count is the
`r` that produced it (for the quadratic, cubic and quartic operators). -/
theorem C08_operator_dimension [CommSemiring K] (k : Kind) (r : Nat) (q : List K)
    (hq : q.length = r) :
    k.dim r = (r + k.deg - 1).choose k.deg ∧ (k.ckron q).length = k.dim r ∧
      (k.indices r).length = k.dim r ∧ k.rOfDim (k.dim r) = some r := by
  refine ⟨dim_eq_choose k r, ?_, ?_, rOfDim_dim k r⟩
  · rw [ckron_eq, length_map, hq, dim_eq_length]
  · rw [indices_eq, dim_eq_length]

/-- **C08, polynomial operator.** For every order `p ≥ 1` the dimension is `C(r+p-1, p)`, for
`p = 0` it is 1, and it is the number of rows of the data block. -/
theorem C08_polynomial_dimension [CommSemiring K] (p : Nat) (q : List K) :
    (polyDim 0 q.length = 1) ∧ (0 < p → polyDim p q.length = (q.length + p - 1).choose p) ∧
      (expP q p).length = polyDim p q.length := by
  refine ⟨rfl, fun hp => by rw [polyDim, if_neg hp.ne'], ?_⟩
  rw [expP_eq, length_map, polyDim_eq]

/-- **C07, every order.** The data block column of `PolynomialOperator(p)` for a state `q` lists
every degree-`p` monomial of the state entries exactly once: its entries are the products over the
members of a duplicate-free list containing exactly the decreasing index tuples of length `p`. -/
theorem C07_monomials_exactly_once [CommSemiring K] (p : Nat) (q : List K) :
    ∃ L : List (List Nat), L.Nodup ∧
      (∀ l, l ∈ L ↔ l.length = p ∧ l.Pairwise (· ≥ ·) ∧ ∀ i ∈ l, i < q.length) ∧
      expP q p = L.map fun l => (l.map fun i => q.getD i 0).prod :=
  ⟨monoms p q.length, nodup_monoms _ _, fun _ => mem_monoms, expP_eq q p⟩

/-- The dedicated class for order `p ≤ 4`. -/
def dedicated : Nat → Option OpKind
  | 0 => some .const
  | 1 => some .lin
  | 2 => some (.kron .quad)
  | 3 => some (.kron .cubic)
  | 4 => some (.kron .quartic)
  | _ => none

/-- **C07.** For `p = 0, ..., 4` the polynomial operator has the dimension and the data block of
`ConstantOperator`, `LinearOperator`, `QuadraticOperator`, `CubicOperator`, `QuarticOperator`
(`r ≥ 1`; any number of snapshots of length `r`; the inputs are irrelevant). -/
theorem C07_agrees_with_dedicated [CommSemiring K] (p : Nat) (o : OpKind) (ho : dedicated p = some o)
    (r m : Nat) (hr : 0 < r) (states inputs : List (List K)) (hs : ∀ q ∈ states, q.length = r)
    (hi : inputs.length = states.length) :
    polyDim p r = o.dim r m ∧ polyDatablock p r states = o.datablock states inputs := by
  have hz : ∀ f : List K → List K, zipWith (fun q _ => f q) states inputs = states.map f := by
    intro f
    induction states generalizing inputs with
    | nil => simp
    | cons a s ih =>
      cases inputs with
      | nil => simp at hi
      | cons b t =>
        simp only [zipWith_cons_cons, map_cons]
        rw [ih t (fun q hq => hs q (mem_cons_of_mem _ hq)) (by simpa using hi)]
  have hr' : r ≠ 0 := hr.ne'
  match p, ho with
  | 0, ho =>
    simp only [dedicated, Option.some.injEq] at ho
    subst ho
    exact ⟨rfl, by simp only [polyDatablock, if_true]; exact (hz fun _ => [1]).symm⟩
  | 1, ho =>
    simp only [dedicated, Option.some.injEq] at ho
    subst ho
    refine ⟨by simp [polyDim, OpKind.dim], ?_⟩
    simp only [polyDatablock, one_ne_zero, hr', if_false, expP]
    exact (hz fun q => q).symm
  | 2, ho =>
    simp only [dedicated, Option.some.injEq] at ho
    subst ho
    refine ⟨by rw [polyDim_eq, OpKind.dim, dim_eq_length]; rfl, ?_⟩
    simp only [polyDatablock, OfNat.ofNat_ne_zero, hr', if_false]
    refine Eq.trans ?_ (hz fun q => Kind.quad.ckron q).symm
    apply map_congr_left; intro q _
    rw [expP_eq, ckron_eq]; rfl
  | 3, ho =>
    simp only [dedicated, Option.some.injEq] at ho
    subst ho
    refine ⟨by rw [polyDim_eq, OpKind.dim, dim_eq_length]; rfl, ?_⟩
    simp only [polyDatablock, OfNat.ofNat_ne_zero, hr', if_false]
    refine Eq.trans ?_ (hz fun q => Kind.cubic.ckron q).symm
    apply map_congr_left; intro q _
    rw [expP_eq, ckron_eq]; rfl
  | 4, ho =>
    simp only [dedicated, Option.some.injEq] at ho
    subst ho
    refine ⟨by rw [polyDim_eq, OpKind.dim, dim_eq_length]; rfl, ?_⟩
    simp only [polyDatablock, OfNat.ofNat_ne_zero, hr', if_false]
    refine Eq.trans ?_ (hz fun q => Kind.quartic.ckron q).symm
    apply map_congr_left; intro q _
    rw [expP_eq, ckron_eq]; rfl
  | n + 5, ho => simp [dedicated] at ho

example : dedicated 3 = some (.kron .cubic) ∧ expP ([2, 3] : List ℚ) 3 = [8, 12, 18, 27] := by
  decide +kernel

end Opinf
