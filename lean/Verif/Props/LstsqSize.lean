import Verif.Props.LstsqSpec
import Verif.Lemmas.MonoFit

/-!
# C56: `lstsq_size`
-/

namespace Opinf

open List

variable {K : Type}

/-- The operator classes named by the characters of a model form. -/
def formOp : Char → Option OpKind
  | 'c' => some .const
  | 'A' => some .lin
  | 'H' => some (.kron .quad)
  | 'G' => some (.kron .cubic)
  | 'B' => some .inp
  | _ => none

/-- The operator classes a model form can name. -/
def formOps : List (Char × OpKind) :=
  [('c', .const), ('A', .lin), ('H', .kron .quad), ('G', .kron .cubic), ('B', .inp)]

/-- `form` names exactly the operators `ops`, each of which occurs once in `ops`. -/
structure FormOf (form : List Char) (ops : List OpKind) : Prop where
  nodup : ops.Nodup
  sound : ∀ c ∈ form, ∃ o ∈ ops, formOp c = some o
  complete : ∀ o ∈ ops, ∃ c ∈ form, formOp c = some o

theorem formOp_eq_some {c : Char} {o : OpKind} (h : formOp c = some o) : (c, o) ∈ formOps := by
  unfold formOp at h
  split at h <;> simp_all [formOps]

theorem form_mem {form : List Char} {ops : List OpKind} (h : FormOf form ops) (p : Char × OpKind)
    (hp : p ∈ formOps) : p.1 ∈ form ↔ p.2 ∈ ops := by
  have inj : ∀ p ∈ formOps, ∀ q ∈ formOps, (p.1 = q.1 ↔ p.2 = q.2) := by decide
  have hf : ∀ p ∈ formOps, formOp p.1 = some p.2 := by decide
  constructor
  · intro h1
    obtain ⟨o, ho, e⟩ := h.sound _ h1
    rw [hf p hp] at e
    exact Option.some.inj e ▸ ho
  · intro h1
    obtain ⟨c, hc, e⟩ := h.complete _ h1
    have := (inj p hp _ (formOp_eq_some e)).mpr rfl
    exact this ▸ hc

/-- Sum over the operators of a form, read off the five possible classes. -/
theorem form_sum {form : List Char} {ops : List OpKind} (h : FormOf form ops) (f : Char × OpKind → Nat)
    (g : OpKind → Nat) (hfg : ∀ p ∈ formOps, p.1 ∈ form → f p = g p.2) :
    (formOps.map fun p => if p.1 ∈ form then f p else 0).sum = (ops.map g).sum := by
  have e1 : (formOps.map fun p => if p.1 ∈ form then f p else 0).sum =
      ((formOps.filter fun p => decide (p.1 ∈ form)).map fun p => g p.2).sum := by
    have aux : ∀ l : List (Char × OpKind), (∀ p ∈ l, p ∈ formOps) →
        (l.map fun p => if p.1 ∈ form then f p else 0).sum =
        ((l.filter fun p => decide (p.1 ∈ form)).map fun p => g p.2).sum := by
      intro l
      induction l with
      | nil => simp
      | cons p l ih =>
        intro hl
        have := ih (fun q hq => hl q (by simp [hq]))
        by_cases hp : p.1 ∈ form
        · simp [hp, this, hfg p (hl p (by simp)) hp]
        · simp [hp, this]
    exact aux _ fun _ h => h
  have e2 : (formOps.filter fun p => decide (p.1 ∈ form)).map Prod.snd ~ ops := by
    apply (perm_ext_iff_of_nodup ?_ h.nodup).mpr
    · intro o
      simp only [mem_map, mem_filter, decide_eq_true_eq]
      constructor
      · rintro ⟨p, ⟨hp, hf⟩, rfl⟩
        exact (form_mem h p hp).mp hf
      · intro ho
        obtain ⟨c, hc, e⟩ := h.complete o ho
        exact ⟨(c, o), ⟨formOp_eq_some e, hc⟩, rfl⟩
    · refine Nodup.sublist (Sublist.map Prod.snd filter_sublist) ?_
      decide
  rw [e1, ← (e2.map g).sum_eq, map_map]
  rfl

/-- **C56**: for a model whose operators to infer are those named by the model form, `lstsq_size`
returns the number of columns of the data matrix, and every assembled row has that many entries. -/
theorem C56_lstsq_size {S : Type} [CommSemiring K] (M : Model K S) (r m : Nat) (hr : M.r = some r)
    (hm : M.m = some m) (form : List Char) (hform : FormOf form M.toInfer)
    (hB : 'B' ∈ form ↔ m ≠ 0) (Q U : List (List K)) (inputs : Option (Nat × List (List K)))
    (hQ : ∀ q ∈ Q, q.length = r) (hU : ∀ u ∈ U, u.length = m) (hl : U.length = Q.length)
    (hu : ∀ o ∈ M.toInfer, o.hasInputs = true → inputs.map Prod.snd = some U) :
    lstsqSize form r m (fun _ => none) = .ok (M.dataMatrix Q inputs).ncols ∧
    ∀ row ∈ (M.dataMatrix Q inputs).rows, row.length = (M.dataMatrix Q inputs).ncols := by
  have hsum : (M.dataMatrix Q inputs).ncols = (M.toInfer.map fun o => o.dim r m).sum := by
    simp only [Model.dataMatrix, hr, hm, Option.getD_some]
  constructor
  · rw [hsum, lstsqSize, if_neg (by rw [hB]; tauto), if_neg (by rw [hB]; tauto),
      ← form_sum hform (fun p => 1 * p.2.dim r m) (fun o => o.dim r m) (fun p _ _ => one_mul _)]
    simp only [formOps, map_cons, map_nil, zipWith_cons_cons, Option.getD_none, OpKind.dim, Kind.dim,
      ite_mul, zero_mul, one_mul, zipWith_nil_left]
  · intro row hrow
    rw [mem_iff_getElem] at hrow
    obtain ⟨j, hj, rfl⟩ := hrow
    have hlen : (M.dataMatrix Q inputs).rows.length = Q.length := by
      by_cases hq : 0 < Q.length
      · exact (dataMatrix_row M Q U inputs hl hu 0 hq).1
      · have : Q = [] := by simpa using hq
        subst this
        simp only [Model.dataMatrix, hstack]
        generalize M.toInfer.map _ = L
        induction L with
        | nil => simp
        | cons a L ih => rw [foldr_cons, length_zipWith, ih]; simp
    have hj' : j < Q.length := hlen ▸ hj
    have e := (dataMatrix_row M Q U inputs hl hu j hj').2
    rw [getD_eq_getElem?_getD, getElem?_eq_getElem hj, Option.getD_some] at e
    rw [e, hsum, length_flatMap]
    congr 1
    apply map_congr_left
    intro o _
    have hjU : j < U.length := hl ▸ hj'
    rw [dataCol_length]
    congr 1
    · rw [getD_eq_getElem?_getD, getElem?_eq_getElem hj', Option.getD_some]
      exact hQ _ (getElem_mem hj')
    · rw [getD_eq_getElem?_getD, getElem?_eq_getElem hjU, Option.getD_some]
      exact hU _ (getElem_mem hjU)

/-- **C56** (affine terms): with `affines c` giving the number of terms of the operator `c`, the size
is the sum of the number of terms times the dimension of each operator (the width of the affine data
block, see C09), each operator without affine structure counting once. -/
theorem C56_lstsq_size_affine (ops : List OpKind) (r m : Nat) (form : List Char)
    (hform : FormOf form ops) (hB : 'B' ∈ form ↔ m ≠ 0) (affines : Char → Option Nat)
    (terms : OpKind → Nat)
    (hterms : ∀ c o, formOp c = some o → c ∈ form → terms o = (affines c).getD 1) :
    lstsqSize form r m affines = .ok (ops.map fun o => terms o * o.dim r m).sum := by
  rw [lstsqSize, if_neg (by rw [hB]; tauto), if_neg (by rw [hB]; tauto),
    ← form_sum hform (fun p => (affines p.1).getD 1 * p.2.dim r m) (fun o => terms o * o.dim r m)]
  · simp only [formOps, map_cons, map_nil, zipWith_cons_cons, OpKind.dim, Kind.dim,
      ite_mul, zero_mul, zipWith_nil_left]
  · intro p hp hf
    have hf' : ∀ p ∈ formOps, formOp p.1 = some p.2 := by decide
    rw [hterms p.1 p.2 (hf' p hp) hf]

/-- **C56** (errors): an input operator needs `m > 0`, and `m > 0` needs an input operator. -/
theorem C56_lstsq_size_rejects (form : List Char) (r m : Nat) (affines : Char → Option Nat)
    (h : ¬ ('B' ∈ form ↔ m ≠ 0)) : lstsqSize form r m affines = .error .value := by
  rw [lstsqSize]
  split
  · rfl
  · rw [if_pos]; tauto

/-- Non-vacuity. -/
example : FormOf ['A', 'H', 'B'] [.kron .quad, .inp, .lin] :=
  ⟨by decide, by decide, by decide⟩

example : lstsqSize ['A', 'H', 'B'] 3 2 (fun c => if c = 'A' then some 4 else none) = .ok 20 := by
  decide

end Opinf
