import Verif.Lemmas.MonoMaster
import Verif.Props.LstsqSpec

/-!
# The operator matrix of a list of operators
-/

namespace Opinf

open List

variable {K : Type}

/-- The entries of an operator, by rows. -/
def Op.rowsOf (o : Op K) : List (List K) := o.entries.elim [] Mat.rows

/-- The entries side by side. -/
def stackRows (ops : List (Op K)) (r : Nat) : List (List K) :=
  (range r).map fun i => ops.flatMap fun o => o.rowsOf.getD i []

/-- The data vector of a state and input. -/
def dataVector [CommSemiring K] (kinds : List OpKind) (q u : List K) : List K := kinds.flatMap fun o => o.dataCol q u

theorem Op.Cal.row_length {o : Op K} {r m : Nat} (h : o.Cal r m) {i : Nat} (hi : i < r) :
    (o.rowsOf.getD i []).length = o.kind.dim r m := by
  obtain ⟨E, hE, hwf, h1, h2⟩ := h
  have hl : i < E.rows.length := by rw [hwf.1, h1]; exact hi
  rw [Op.rowsOf, hE, Option.elim_some, getD_eq_getElem E.rows _ hl, hwf.2 _ (getElem_mem _), h2]

theorem dataCol_length_ok [CommSemiring K] {o : OpKind} {r m : Nat} {q : List K} {u : Option (List K)} (hq : q.length = r)
    (hu : InputOK o m u) : (o.dataCol q (u.getD [])).length = o.dim r m := by
  rw [dataCol_length, hq]
  by_cases hin : o.hasInputs = true
  · obtain ⟨v, rfl, hv⟩ := hu hin
    simp [hv]
  · exact dim_ignores_input _ (by simpa using hin) _ _ _

theorem stackRow_length (ops : List (Op K)) {r m : Nat} (h : ∀ o ∈ ops, o.Cal r m) {i : Nat} (hi : i < r) :
    (ops.flatMap fun o => o.rowsOf.getD i []).length = (ops.map fun o => o.kind.dim r m).sum := by
  rw [length_flatMap]
  congr 1
  refine map_congr_left fun o ho => ?_
  exact (h o ho).row_length hi

theorem dataVector_length [CommSemiring K] (kinds : List OpKind) {r m : Nat} {q : List K} {u : Option (List K)}
    (hq : q.length = r) (hu : ∀ o ∈ kinds, InputOK o m u) :
    (dataVector kinds q (u.getD [])).length = (kinds.map fun o => o.dim r m).sum := by
  rw [dataVector, length_flatMap]
  congr 1
  exact map_congr_left fun o ho => dataCol_length_ok hq (hu o ho)

theorem foldl_vadd_getD [CommSemiring K] {r : Nat} (L : List (List K)) (hL : ∀ l ∈ L, l.length = r) (acc : List K)
    (hacc : acc.length = r) {i : Nat} (hi : i < r) :
    (L.foldl vadd acc).getD i 0 = acc.getD i 0 + (L.map fun l => l.getD i 0).sum := by
  induction L generalizing acc with
  | nil => simp
  | cons l L ih =>
    have hl := hL l (by simp)
    rw [foldl_cons, ih (fun x hx => hL x (by simp [hx])) _ (by rw [vadd, length_zipWith, hacc, hl, min_self])]
    rw [map_cons, sum_cons, getD_eq_getElem (vadd acc l) _ (by rw [vadd, length_zipWith]; omega),
      getD_eq_getElem acc _ (by omega), getD_eq_getElem l _ (by omega)]
    simp only [vadd, getElem_zipWith]
    rw [add_assoc]

theorem dot_flatMap [CommSemiring K] {α : Type} (l : List α) (f g : α → List K) (h : ∀ a ∈ l, (f a).length = (g a).length) :
    dot (l.flatMap f) (l.flatMap g) = (l.map fun a => dot (f a) (g a)).sum := by
  induction l with
  | nil => rfl
  | cons a l ih =>
    rw [flatMap_cons, flatMap_cons, dot_append _ _ _ _ (h a (by simp)), ih fun x hx => h x (by simp [hx]), map_cons, sum_cons]

/-- The right-hand side is the operator matrix times the data vector. -/
theorem rhsVal_stack [CommSemiring K] {r m : Nat} {ops : List (Op K)} (h : ∀ o ∈ ops, o.Cal r m) (q : List K)
    (u : Option (List K)) (hq : q.length = r) (hu : ∀ o ∈ ops, InputOK o.kind m u) :
    rhsVal ops r q u = matVec (stackRows ops r) (dataVector (ops.map Op.kind) q (u.getD [])) := by
  refine ext_getElem (by rw [length_rhsVal _ r m h]; simp [stackRows]) fun i h1 h2 => ?_
  have hi : i < r := by rwa [length_rhsVal _ r m h] at h1
  rw [← getD_eq_getElem (rhsVal ops r q u) 0 h1, rhsVal,
    foldl_vadd_getD (r := r) _ ?_ _ (by simp) hi]
  · simp only [matVec, stackRows, getElem_map, getElem_range]
    rw [dataVector, flatMap_map, dot_flatMap _ _ _ fun o ho => ?_, map_map]
    · rw [getD_eq_getElem (replicate r 0) _ (by simpa using hi), getElem_replicate, zero_add]
      congr 1
      refine map_congr_left fun o ho => ?_
      rw [Function.comp_apply]
      obtain ⟨E, hE, hwf, e1, e2⟩ := h o ho
      have hl : i < E.rows.length := by rw [hwf.1, e1]; exact hi
      simp only [Op.val, hE, Op.rowsOf, Option.elim_some]
      rw [getD_eq_getElem (matVec E.rows _) _ (by rw [length_matVec]; exact hl), getD_eq_getElem E.rows _ hl]
      simp [matVec]
    · rw [(h o ho).row_length hi, dataCol_length_ok hq (hu o ho)]
  · intro l hl
    obtain ⟨o, ho, rfl⟩ := mem_map.1 hl
    exact (h o ho).length_val q u

theorem stackRows_wf {r m : Nat} {ops : List (Op K)} (h : ∀ o ∈ ops, o.Cal r m) :
    (⟨r, (ops.map fun o => o.kind.dim r m).sum, stackRows ops r⟩ : Mat K).WF := by
  refine ⟨by simp [stackRows], fun row hrow => ?_⟩
  obtain ⟨i, hi, rfl⟩ := mem_map.1 hrow
  exact stackRow_length ops h (mem_range.1 hi)

/-- The operator matrix determines the operators. -/
theorem stackRows_inj {r m : Nat} {ops ops' : List (Op K)} (h : ∀ o ∈ ops, o.Cal r m) (h' : ∀ o ∈ ops', o.Cal r m)
    (hk : ops.map Op.kind = ops'.map Op.kind)
    (hrows : ∀ i < r, (ops.flatMap fun o => o.rowsOf.getD i []) = ops'.flatMap fun o => o.rowsOf.getD i []) :
    ops = ops' := by
  induction ops generalizing ops' with
  | nil =>
    cases ops' with
    | nil => rfl
    | cons o ops' => simp at hk
  | cons o ops ih =>
    cases ops' with
    | nil => simp at hk
    | cons o' ops' =>
      rw [map_cons, map_cons, cons.injEq] at hk
      have ho := h o (by simp)
      have ho' := h' o' (by simp)
      have hs : ∀ i < r, o.rowsOf.getD i [] = o'.rowsOf.getD i [] ∧
          (ops.flatMap fun o => o.rowsOf.getD i []) = ops'.flatMap fun o => o.rowsOf.getD i [] := by
        intro i hi
        have := hrows i hi
        rw [flatMap_cons, flatMap_cons] at this
        exact append_inj this (by rw [ho.row_length hi, ho'.row_length hi, hk.1])
      have he : o = o' := by
        obtain ⟨E, hE, hwf, e1, e2⟩ := ho
        obtain ⟨E', hE', hwf', e1', e2'⟩ := ho'
        have hrow : E.rows = E'.rows := by
          refine ext_getElem (by rw [hwf.1, hwf'.1, e1, e1']) fun i h1 h2 => ?_
          have := (hs i (by rw [← e1, ← hwf.1]; exact h1)).1
          simp only [Op.rowsOf, hE, hE', Option.elim_some] at this
          rwa [getD_eq_getElem E.rows _ h1, getD_eq_getElem E'.rows _ h2] at this
        have hEE : E = E' := by
          cases E; cases E'
          simp only at e1 e1' e2 e2' hrow
          rw [hk.1] at e2
          rw [hrow, e1, e1', e2, e2']
        cases o; cases o'
        simp only at hE hE' hk
        rw [hE, hE', hEE, hk.1]
      rw [he, ih (fun o ho => h o (by simp [ho])) (fun o ho => h' o (by simp [ho])) hk.2 fun i hi => (hs i hi).2]

end Opinf
