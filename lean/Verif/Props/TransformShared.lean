import Verif.Model.TransformShared
import Verif.Props.MultiShared

/-!
# C124: the variables of a multi-variable transformer
-/

namespace Opinf

open List

variable {K S : Type}

theorem heapEachFit_frame (f : S → Snap K → S × Buf K) (refs : List Nat) (Ys : List (Snap K)) (H : List S)
    (q : Nat) (hq : q ∉ refs) : (heapEachFit f refs Ys H).1[q]? = H[q]? := by
  induction refs generalizing Ys H with
  | nil => cases Ys <;> rfl
  | cons p ps ih =>
    have hqp : p ≠ q := fun e => hq (e ▸ mem_cons_self)
    have hqs : q ∉ ps := fun e => hq (mem_cons_of_mem _ e)
    cases Ys with
    | nil => rfl
    | cons Y Ys =>
      rw [heapEachFit]
      cases hp : H[p]? with
      | none => rfl
      | some t =>
        simp only
        rcases hf : f t Y with ⟨t', Y', e⟩
        cases e with
        | error e => simp [getElem?_set_ne hqp]
        | ok Z =>
          have := ih Ys (H.set p t') hqs
          rw [getElem?_set_ne hqp] at this
          simp only
          rcases hr : heapEachFit f ps Ys (H.set p t') with ⟨H', Ys', e⟩
          rw [hr] at this
          cases e <;> exact this

theorem heapEachFit_reads (f : S → Snap K → S × Buf K) (refs : List Nat) (hn : refs.Nodup) (Ys : List (Snap K)) (H : List S)
    (ts : List S) (h : Reads H refs ts) :
    Reads (heapEachFit f refs Ys H).1 refs (eachPartFit f ts Ys).1 ∧ (heapEachFit f refs Ys H).2 = (eachPartFit f ts Ys).2 := by
  induction refs generalizing Ys H ts with
  | nil =>
    cases ts with
    | nil => cases Ys <;> exact ⟨rfl, rfl⟩
    | cons t ts => cases h
  | cons p ps ih =>
    obtain ⟨t, ts', rfl, ht, h'⟩ := h.cons_inv
    obtain ⟨hp, hn'⟩ := nodup_cons.1 hn
    cases Ys with
    | nil => exact ⟨h, rfl⟩
    | cons Y Ys =>
      rw [heapEachFit, eachPartFit, ht]
      simp only
      have hlt : p < H.length := by
        by_contra hc
        rw [getElem?_eq_none (by omega)] at ht
        cases ht
      rcases hf : f t Y with ⟨t', Y', e⟩
      have hr : Reads (H.set p t') ps ts' := h'.congr fun q hq => getElem?_set_ne (fun e : p = q => hp (e ▸ hq))
      have hs : (H.set p t')[p]? = some t' := by simp [hlt]
      cases e with
      | error e =>
        refine ⟨?_, rfl⟩
        simp only [Reads, map_cons]
        rw [hs, hr]
      | ok Z =>
        obtain ⟨i1, i2⟩ := ih hn' Ys _ _ hr
        have i3 := heapEachFit_frame f ps Ys (H.set p t') p hp
        rw [hs] at i3
        simp only
        rcases hx : heapEachFit f ps Ys (H.set p t') with ⟨H', Ys', e⟩
        rcases hy : eachPartFit f ts' Ys with ⟨ts'', Ys'', e'⟩
        rw [hx, hy] at i1 i2
        rw [hx] at i3
        simp only at i1 i2 i3
        cases i2
        cases e <;>
        · refine ⟨?_, rfl⟩
          simp only [Reads, map_cons]
          rw [i3, i1]

theorem valueLoop_force (I : TfI K S) (ts : List S) (refs : List Nat) (h : refs.length = ts.length) (n : Nat) :
    valueLoop ts (refs.map fun _ t => (I.forceDim t n, .ok ())) = (ts.map fun t => I.forceDim t n, .ok ()) := by
  induction ts generalizing refs with
  | nil =>
    cases refs with
    | nil => rfl
    | cons p refs => cases h
  | cons t ts ih =>
    cases refs with
    | nil => cases h
    | cons p refs =>
      rw [map_cons, valueLoop]
      simp only
      rw [ih refs (by simpa using h)]
      rfl

theorem valueLoop_sizeStep (I : TfI K S) (ts : List S) (ns : List Nat) (h : ns.length = ts.length) :
    (valueLoop ts (ns.map (sizeStep I))).2 = (setSizes I ts ns).map (fun _ => ()) ∧
      ∀ ts', setSizes I ts ns = .ok ts' → (valueLoop ts (ns.map (sizeStep I))).1 = ts' := by
  induction ts generalizing ns with
  | nil =>
    cases ns with
    | nil => exact ⟨rfl, fun ts' e => by cases e; rfl⟩
    | cons n ns => cases h
  | cons t ts ih =>
    cases ns with
    | nil => cases h
    | cons n ns =>
      obtain ⟨i1, i2⟩ := ih ns (by simpa using h)
      rw [map_cons, valueLoop, setSizes, sizeStep]
      cases hd : I.dim t with
      | none =>
        simp only
        rcases hs : I.setDim t n with ⟨t', e⟩
        cases e with
        | error e => exact ⟨rfl, fun ts' e => by cases e⟩
        | ok _ =>
          simp only
          rw [i1]
          cases hx : setSizes I ts ns with
          | error e => exact ⟨rfl, fun ts' e => by cases e⟩
          | ok xs => exact ⟨rfl, fun ts' e => by rw [i2 xs hx]; exact Except.ok.inj e⟩
      | some k =>
        simp only
        by_cases hk : k = n
        · simp only [hk, if_true]
          rw [i1]
          cases hx : setSizes I ts ns with
          | error e => exact ⟨rfl, fun ts' e => by cases e⟩
          | ok xs => exact ⟨rfl, fun ts' e => by rw [i2 xs hx]; exact Except.ok.inj e⟩
        · simp only [hk, if_false]
          exact ⟨rfl, fun ts' e => by cases e⟩

/-! ### Property theorems -/

/-- **C124** (multi-variable transformers, construction). `TransformerMulti` of different transformer objects accepts what the
list of these transformers accepts and leaves them with the same sizes; no other object changes. -/
theorem C124_multi_make (I : TfI K S) (refs : List Nat) (hn : refs.Nodup) (sizes : Option (List Nat)) (H : List S)
    (ts : List S) (h : Reads H refs ts) :
    (heapMultiMake I refs sizes H).2 = (multiMake I ts sizes).map (fun _ => ()) ∧
      (∀ ts', multiMake I ts sizes = .ok ts' → Reads (heapMultiMake I refs sizes H).1 refs ts') ∧
      (∀ q, q ∉ refs → (heapMultiMake I refs sizes H).1[q]? = H[q]?) := by
  have hl := h.length
  unfold heapMultiMake multiMake
  have he : refs.isEmpty = ts.isEmpty := by
    cases refs <;> cases ts <;> first | rfl | cases hl
  rw [he, hl]
  by_cases ht : ts.isEmpty = true
  · rw [if_pos ht, if_pos ht]
    exact ⟨rfl, (fun ts' e => by cases e), fun q _ => rfl⟩
  · rw [if_neg ht, if_neg ht]
    cases sizes with
    | none => exact ⟨rfl, (fun ts' e => by cases e; exact h), fun q _ => rfl⟩
    | some ns =>
      simp only
      by_cases hns : ns.length ≠ ts.length
      · rw [if_pos hns, if_pos hns]
        exact ⟨rfl, (fun ts' e => by cases e), fun q _ => rfl⟩
      · rw [if_neg hns, if_neg hns]
        obtain ⟨a1, a2⟩ := heapLoop_reads refs hn (ns.map (sizeStep I)) H ts h
        obtain ⟨b1, b2⟩ := valueLoop_sizeStep I ts ns (by omega)
        exact ⟨by rw [a2, b1], fun ts' e => by rw [← b2 ts' e]; exact a1, fun q hq => heapLoop_frame refs _ H q hq⟩

/-- **C124** (multi-variable transformers, training). A multi-variable transformer of different transformer objects is trained
like the list of these transformers, and no other object changes. -/
theorem C124_multi_fit (I : TfI K S) (refs : List Nat) (hn : refs.Nodup) (b : Bool) (Y : Snap K) (H : List S)
    (ts : List S) (h : Reads H refs ts) :
    Reads (heapMultiFit I refs b Y H).1 refs (multiFitTransform I ts b Y).1 ∧
      (heapMultiFit I refs b Y H).2 = (multiFitTransform I ts b Y).2 ∧
      (∀ q, q ∉ refs → (heapMultiFit I refs b Y H).1[q]? = H[q]?) := by
  have parts : ∀ (H : List S) (ts : List S), Reads H refs ts →
      Reads (heapMultiParts I refs b Y H).1 refs (match multiSplit I ts Y with
        | .error e => (ts, Y, .error e)
        | .ok parts =>
          let r := eachPartFit (fun t Y => I.fitTransform t b Y) ts parts
          (r.1, multiResult b Y r.2) : List S × Buf K).1 ∧
        (heapMultiParts I refs b Y H).2 = (match multiSplit I ts Y with
        | .error e => (ts, Y, .error e)
        | .ok parts =>
          let r := eachPartFit (fun t Y => I.fitTransform t b Y) ts parts
          (r.1, multiResult b Y r.2) : List S × Buf K).2 ∧
        ∀ q, q ∉ refs → (heapMultiParts I refs b Y H).1[q]? = H[q]? := by
    intro H ts h
    unfold heapMultiParts
    rw [h.read]
    cases multiSplit I ts Y with
    | error e => exact ⟨h, rfl, fun q _ => rfl⟩
    | ok ps =>
      obtain ⟨a1, a2⟩ := heapEachFit_reads (fun t Y => I.fitTransform t b Y) refs hn ps H ts h
      exact ⟨a1, by simp only; rw [a2], fun q hq => heapEachFit_frame _ refs ps H q hq⟩
  unfold heapMultiFit multiFitTransform
  rw [h.read, h.length]
  cases hd : multiDim I ts with
  | some n => exact parts H ts h
  | none =>
    simp only
    by_cases hm : Y.len % ts.length = 0
    · rw [if_pos hm, if_pos hm]
      obtain ⟨a1, -⟩ := heapLoop_reads refs hn (refs.map fun _ t => (I.forceDim t (Y.len / ts.length), .ok ())) H ts h
      rw [valueLoop_force I ts refs h.length] at a1
      obtain ⟨p1, p2, p3⟩ := parts _ _ a1
      exact ⟨p1, p2, fun q hq => by rw [p3 q hq]; exact heapLoop_frame refs _ H q hq⟩
    · rw [if_neg hm, if_neg hm]
      exact ⟨h, rfl, fun q _ => rfl⟩

/-- **C124** (negation: one transformer for two variables). `TransformerMulti([t, t])` with one centering transformer trains
it with the first variable and then with the second: `fit_transform(states)` and `transform(states)` differ, and
`inverse_transform` does not return the states. -/
theorem C124_multi_shared :
    (heapMultiFit (sstI id) [0, 0] false (.mat 2 [[1, 3], [10, 20]]) [centerEx]).2.2 = .ok (.mat 2 [[-1, 1], [-5, 5]]) ∧
      (multiTransform (sstI id) (heapRead
        (heapMultiFit (sstI id) [0, 0] false (.mat 2 [[1, 3], [10, 20]]) [centerEx]).1 [0, 0]) false
          (.mat 2 [[1, 3], [10, 20]])).2 = .ok (.mat 2 [[-14, -12], [-5, 5]]) ∧
      (multiInverse (sstI id) (heapRead
        (heapMultiFit (sstI id) [0, 0] false (.mat 2 [[1, 3], [10, 20]]) [centerEx]).1 [0, 0]) false
          (.mat 2 [[-1, 1], [-5, 5]]) none).2 = .ok (.mat 2 [[14, 16], [10, 20]]) := by
  refine ⟨?_, ?_, ?_⟩ <;> decide +kernel

/-! ### Non-vacuity -/

-- two different objects, in reverse order
example : Reads [centerEx, centerEx] [1, 0] [centerEx, centerEx] := by simp [Reads]

example : (heapMultiFit (sstI id) [1, 0] false (.mat 2 [[1, 3], [10, 20]]) [centerEx, centerEx]).2.2 =
      .ok (.mat 2 [[-1, 1], [-5, 5]]) ∧
    (multiTransform (sstI id) (heapRead
      (heapMultiFit (sstI id) [1, 0] false (.mat 2 [[1, 3], [10, 20]]) [centerEx, centerEx]).1 [1, 0]) false
        (.mat 2 [[1, 3], [10, 20]])).2 = .ok (.mat 2 [[-1, 1], [-5, 5]]) := by
  constructor <;> decide +kernel

example : (heapMultiMake (sstI id) [0, 1] (some [2, 3]) [centerEx, centerEx]).2 = .ok () ∧
    (heapMultiMake (sstI id) [0, 0] (some [2, 3]) [centerEx, centerEx]).2 = .error .value := by
  constructor <;> decide +kernel

end Opinf
