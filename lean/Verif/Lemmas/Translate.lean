import Verif.Lemmas.Recoord
import Verif.Lemmas.Kron
import Verif.Lemmas.Poly

/-!
# Translations of the states act linearly on the data vectors of complete polynomial models
-/

namespace Opinf

open List

variable {K : Type}

/-- A set of operator classes that contains with each class those of lower degree: polynomials in the state down to the
constant, and with products of inputs and states also the inputs. -/
structure Complete (kinds : List OpKind) : Prop where
  lin : OpKind.lin ∈ kinds → OpKind.const ∈ kinds
  quad : OpKind.kron .quad ∈ kinds → OpKind.lin ∈ kinds
  cubic : OpKind.kron .cubic ∈ kinds → OpKind.kron .quad ∈ kinds
  quartic : OpKind.kron .quartic ∈ kinds → OpKind.kron .cubic ∈ kinds
  stateInp : OpKind.stateInp ∈ kinds → OpKind.inp ∈ kinds

/-- A function of state and input is a linear function of the data vector. -/
def Spanned [CommSemiring K] (kinds : List OpKind) (r m : Nat) (f : List K → Option (List K) → K) : Prop :=
  ∃ row : List K, row.length = (kinds.map fun o => o.dim r m).sum ∧ ∀ (q : List K) (u : Option (List K)), q.length = r →
    (∀ o ∈ kinds, InputOK o m u) → dot row (dataVector kinds q (u.getD [])) = f q u

section

variable [CommRing K] {kinds : List OpKind} {r m : Nat}

theorem Spanned.congr {f g : List K → Option (List K) → K} (h : Spanned kinds r m f)
    (e : ∀ (q : List K) (u : Option (List K)), q.length = r → (∀ o ∈ kinds, InputOK o m u) → f q u = g q u) :
    Spanned kinds r m g := by
  obtain ⟨row, h1, h2⟩ := h
  exact ⟨row, h1, fun q u hq hu => by rw [h2 q u hq hu, e q u hq hu]⟩

theorem Spanned.add {f g : List K → Option (List K) → K} (h : Spanned kinds r m f) (h' : Spanned kinds r m g) :
    Spanned kinds r m fun q u => f q u + g q u := by
  obtain ⟨row, h1, h2⟩ := h
  obtain ⟨row', h1', h2'⟩ := h'
  refine ⟨vadd row row', by rw [length_vadd, h1, h1', min_self], fun q u hq hu => ?_⟩
  rw [dot_vadd_left _ _ _ (by rw [h1, h1']), h2 q u hq hu, h2' q u hq hu]

theorem Spanned.smul {f : List K → Option (List K) → K} (h : Spanned kinds r m f) (a : K) :
    Spanned kinds r m fun q u => a * f q u := by
  obtain ⟨row, h1, h2⟩ := h
  refine ⟨vsmul a row, by rw [vsmul, length_map, h1], fun q u hq hu => ?_⟩
  rw [dot_vsmul_left, h2 q u hq hu]

/-- Where an entry of a data block is in the data vector. -/
theorem entry_position {o : OpKind} (ho : o ∈ kinds) {j : Nat} (hj : j < o.dim r m) :
    ∃ k, k < (kinds.map fun o => o.dim r m).sum ∧ ∀ (q : List K) (u : Option (List K)), q.length = r →
      (∀ o ∈ kinds, InputOK o m u) → (dataVector kinds q (u.getD [])).getD k 0 = (o.dataCol q (u.getD [])).getD j 0 := by
  induction kinds with
  | nil => cases ho
  | cons a kinds ih =>
    by_cases he : o = a
    · subst he
      refine ⟨j, by rw [map_cons, sum_cons]; omega, fun q u hq hu => ?_⟩
      rw [dataVector, flatMap_cons, getD_eq_getElem?_getD, getElem?_append_left (by
        rw [dataCol_length_ok hq (hu o mem_cons_self)]; exact hj), ← getD_eq_getElem?_getD]
    · obtain ⟨k, h1, h2⟩ := ih ((mem_cons.1 ho).resolve_left he)
      refine ⟨a.dim r m + k, by rw [map_cons, sum_cons]; omega, fun q u hq hu => ?_⟩
      have hl := dataCol_length_ok (o := a) hq (hu a mem_cons_self)
      rw [dataVector, flatMap_cons, getD_eq_getElem?_getD, getElem?_append_right (by rw [hl]; omega), hl,
        Nat.add_sub_cancel_left, ← getD_eq_getElem?_getD]
      exact h2 q u hq fun o h => hu o (mem_cons_of_mem _ h)

/-- Which entry of which data block is at a position of the data vector. -/
theorem position_entry {k : Nat} (hk : k < (kinds.map fun o => o.dim r m).sum) :
    ∃ o ∈ kinds, ∃ j, j < o.dim r m ∧ ∀ (q : List K) (u : Option (List K)), q.length = r →
      (∀ o ∈ kinds, InputOK o m u) → (dataVector kinds q (u.getD [])).getD k 0 = (o.dataCol q (u.getD [])).getD j 0 := by
  induction kinds generalizing k with
  | nil => simp at hk
  | cons a kinds ih =>
    rw [map_cons, sum_cons] at hk
    by_cases hk1 : k < a.dim r m
    · refine ⟨a, mem_cons_self, k, hk1, fun q u hq hu => ?_⟩
      rw [dataVector, flatMap_cons, getD_eq_getElem?_getD, getElem?_append_left (by
        rw [dataCol_length_ok hq (hu a mem_cons_self)]; exact hk1), ← getD_eq_getElem?_getD]
    · obtain ⟨o, ho, j, hj, h2⟩ := ih (k := k - a.dim r m) (by omega)
      refine ⟨o, mem_cons_of_mem _ ho, j, hj, fun q u hq hu => ?_⟩
      have hl := dataCol_length_ok (o := a) hq (hu a mem_cons_self)
      rw [dataVector, flatMap_cons, getD_eq_getElem?_getD, getElem?_append_right (by rw [hl]; omega), hl,
        ← getD_eq_getElem?_getD]
      exact h2 q u hq fun o h => hu o (mem_cons_of_mem _ h)

theorem spanned_entry {o : OpKind} (ho : o ∈ kinds) {j : Nat} (hj : j < o.dim r m) :
    Spanned (K := K) kinds r m fun q u => (o.dataCol q (u.getD [])).getD j 0 := by
  obtain ⟨k, h1, h2⟩ := entry_position (K := K) ho hj
  refine ⟨(range (kinds.map fun o => o.dim r m).sum).map fun i => if k = i then 1 else 0, by simp, fun q u hq hu => ?_⟩
  rw [dot_comm', dot_unit _ _ _ (dataVector_length kinds hq hu) h1]
  exact h2 q u hq hu

/-- Polynomials of the degree are among the data. -/
def HasDegree (kinds : List OpKind) : Nat → Prop
  | 0 => OpKind.const ∈ kinds
  | 1 => OpKind.lin ∈ kinds
  | 2 => OpKind.kron .quad ∈ kinds
  | 3 => OpKind.kron .cubic ∈ kinds
  | 4 => OpKind.kron .quartic ∈ kinds
  | _ => False

theorem Complete.down (h : Complete kinds) {n : Nat} (hn : HasDegree kinds (n + 1)) : HasDegree kinds n := by
  match n, hn with
  | 0, hn => exact h.lin hn
  | 1, hn => exact h.quad hn
  | 2, hn => exact h.cubic hn
  | 3, hn => exact h.quartic hn

theorem spanned_kron {k : Kind} (hk : OpKind.kron k ∈ kinds) {l : List Nat} (hl : l.length = k.deg) (hb : ∀ x ∈ l, x < r) :
    Spanned (K := K) kinds r m fun q _ => mono q l := by
  have hs : srt l ∈ monoms k.deg r := mem_monoms.2 ⟨by rw [(srt_perm l).length_eq, hl], pairwise_insertionSort _ _,
    fun x hx => hb x ((srt_perm l).mem_iff.1 hx)⟩
  obtain ⟨j, hj, e⟩ := getElem_of_mem hs
  refine (spanned_entry hk (j := j) (by rw [OpKind.dim, dim_eq_length]; exact hj)).congr fun q u hq _ => ?_
  rw [OpKind.dataCol, ckron_eq, hq, Opinf.getD_eq_getElem _ 0 (by rw [length_map]; exact hj), getElem_map, e]
  exact mono_perm q (srt_perm l)

theorem spanned_mono {n : Nat} (hn : HasDegree kinds n) {l : List Nat} (hl : l.length = n) (hb : ∀ x ∈ l, x < r) :
    Spanned (K := K) kinds r m fun q _ => mono q l := by
  match n, hn with
  | 0, hn =>
    obtain rfl := length_eq_zero_iff.1 hl
    exact (spanned_entry hn (j := 0) (by simp [OpKind.dim])).congr fun q u _ _ => by simp [OpKind.dataCol, mono]
  | 1, hn =>
    obtain ⟨i, rfl⟩ := length_eq_one_iff.1 hl
    exact (spanned_entry hn (j := i) (hb i (by simp))).congr fun q u _ _ => by simp [OpKind.dataCol, mono]
  | 2, hn => exact spanned_kron hn hl hb
  | 3, hn => exact spanned_kron hn hl hb
  | 4, hn => exact spanned_kron hn hl hb

/-- Products of entries and translated entries. -/
theorem spanned_products (hc : Complete kinds) (c : List K) (l : List Nat) (l1 : List Nat)
    (hd : HasDegree kinds (l1.length + l.length)) (hb : ∀ x ∈ l, x < r) (hb1 : ∀ x ∈ l1, x < r) :
    Spanned kinds r m fun q _ => mono q l1 * (l.map fun i => q.getD i 0 + c.getD i 0).prod := by
  induction l generalizing l1 with
  | nil => exact (spanned_mono hd rfl hb1).congr fun q u _ _ => by simp
  | cons i l ih =>
    have hdn : HasDegree kinds (l1.length + l.length) := hc.down (n := l1.length + l.length) (by
      rw [length_cons, ← Nat.add_assoc] at hd; exact hd)
    have a := ih (i :: l1) (by rw [length_cons] at hd ⊢; rw [Nat.add_right_comm]; exact hd)
      (fun x hx => hb x (mem_cons_of_mem _ hx)) (fun x hx => (mem_cons.1 hx).elim (fun e => e ▸ hb i mem_cons_self) (hb1 x))
    have b := ih l1 hdn (fun x hx => hb x (mem_cons_of_mem _ hx)) hb1
    refine (a.add (b.smul (c.getD i 0))).congr fun q u _ _ => ?_
    simp only [mono, map_cons, prod_cons]
    ring

theorem mono_shift {q c : List K} (h : q.length = c.length) (l : List Nat) :
    mono (vadd q c) l = (l.map fun i => q.getD i 0 + c.getD i 0).prod := by
  rw [mono]
  refine congrArg List.prod (map_congr_left fun i _ => ?_)
  rw [getD_vadd _ _ h]

/-- Each entry of the data at the translated state is a linear function of the data at the state. -/
theorem spanned_translate (hc : Complete kinds) {c : List K} (hl : c.length = r) {o : OpKind} (ho : o ∈ kinds) {j : Nat}
    (hj : j < o.dim r m) : Spanned kinds r m fun q u => (o.dataCol (vadd q c) (u.getD [])).getD j 0 := by
  cases o with
  | const => exact spanned_entry (K := K) ho hj
  | inp => exact spanned_entry (K := K) ho hj
  | lin =>
    refine ((spanned_entry ho hj).add ((spanned_entry (hc.lin ho) (j := 0) (by simp [OpKind.dim])).smul (c.getD j 0))).congr
      fun q u hq _ => ?_
    simp only [OpKind.dataCol]
    rw [getD_vadd _ _ (by rw [hq, hl])]
    simp
  | kron k =>
    rw [OpKind.dim, dim_eq_length] at hj
    obtain ⟨h1, h2, h3⟩ := mem_monoms.1 (getElem_mem hj)
    have hd : HasDegree kinds ((monoms k.deg r)[j]).length := by rw [h1]; cases k <;> exact ho
    refine (spanned_products hc c (monoms k.deg r)[j] [] (by simpa using hd) h3 (by simp)).congr fun q u hq _ => ?_
    have hv : (vadd q c).length = r := by rw [length_vadd, hq, hl, min_self]
    rw [OpKind.dataCol, ckron_eq, hv, Opinf.getD_eq_getElem _ 0 (by rw [length_map]; exact hj), getElem_map,
      mono_shift (by rw [hq, hl])]
    simp [mono]
  | stateInp =>
    have hr : 0 < r := by
      rcases Nat.eq_zero_or_pos r with h | h
      · subst h; simp [OpKind.dim] at hj
      · exact h
    have hm : j / r < m := Nat.div_lt_of_lt_mul hj
    have hb : j % r < r := Nat.mod_lt _ hr
    refine ((spanned_entry ho hj).add ((spanned_entry (hc.stateInp ho) (j := j / r) hm).smul (c.getD (j % r) 0))).congr
      fun q u hq hu => ?_
    have hj' : j / r * r + j % r = j := by rw [Nat.mul_comm]; exact Nat.div_add_mod j r
    have hv : (vadd q c).length = r := by rw [length_vadd, hq, hl, min_self]
    have e : ∀ x : List K, x.length = r → (Opinf.kron (u.getD []) x).getD j 0 = (u.getD []).getD (j / r) 0 * x.getD (j % r) 0 := by
      intro x hx
      have := kron_getD (u.getD []) x (j / r) (j % r) (by rw [hx]; exact hb)
      rw [hx, hj'] at this
      exact this
    simp only [OpKind.dataCol]
    rw [e q hq, e _ hv, getD_vadd _ _ (by rw [hq, hl])]
    ring

/-- Functions of state and input all of whose entries are linear functions of the data vector. -/
theorem spanned_matrix {n : Nat} {F : List K → Option (List K) → List K} (h : ∀ k, k < n → Spanned kinds r m fun q u => (F q u).getD k 0)
    (hF : ∀ (q : List K) (u : Option (List K)), q.length = r → (∀ o ∈ kinds, InputOK o m u) → (F q u).length = n) :
    ∃ L : List (List K), IsMat n (kinds.map fun o => o.dim r m).sum L ∧ ∀ (q : List K) (u : Option (List K)), q.length = r →
      (∀ o ∈ kinds, InputOK o m u) → matVec L (dataVector kinds q (u.getD [])) = F q u := by
  have key : ∀ k : Nat, ∃ row : List K, k < n → row.length = (kinds.map fun o => o.dim r m).sum ∧
      ∀ (q : List K) (u : Option (List K)), q.length = r → (∀ o ∈ kinds, InputOK o m u) →
        dot row (dataVector kinds q (u.getD [])) = (F q u).getD k 0 := by
    intro k
    by_cases hk : k < n
    · obtain ⟨row, h1⟩ := h k hk
      exact ⟨row, fun _ => h1⟩
    · exact ⟨[], fun h => absurd h hk⟩
  choose g hg using key
  refine ⟨(range n).map g, ⟨by simp, fun row hrow => ?_⟩, fun q u hq hu => ?_⟩
  · obtain ⟨k, hk, rfl⟩ := mem_map.1 hrow
    exact (hg k (mem_range.1 hk)).1
  · have hl := hF q u hq hu
    refine ext_getElem (by simp [hl]) fun k h1 h2 => ?_
    have hk : k < n := by rw [hl] at h2; exact h2
    have e := (hg k hk).2 q u hq hu
    rw [Opinf.getD_eq_getElem _ 0 h2] at e
    rw [← e]
    simp [matVec]

/-- The data vector at the translated state is a matrix times the data vector at the state. -/
theorem translate_features (hc : Complete kinds) {c : List K} (hl : c.length = r) :
    ∃ L : List (List K), IsMat (kinds.map fun o => o.dim r m).sum (kinds.map fun o => o.dim r m).sum L ∧
      ∀ (q : List K) (u : Option (List K)), q.length = r → (∀ o ∈ kinds, InputOK o m u) →
        matVec L (dataVector kinds q (u.getD [])) = dataVector kinds (vadd q c) (u.getD []) := by
  have hv : ∀ q : List K, q.length = r → (vadd q c).length = r := fun q hq => by rw [length_vadd, hq, hl, min_self]
  refine spanned_matrix (F := fun q u => dataVector kinds (vadd q c) (u.getD [])) (fun k hk => ?_) fun q u hq hu =>
    dataVector_length kinds (hv q hq) hu
  obtain ⟨o, ho, j, hj, e⟩ := position_entry (K := K) hk
  exact (spanned_translate hc hl ho hj).congr fun q u hq hu => (e (vadd q c) u (hv q hq) hu).symm

end

end Opinf
