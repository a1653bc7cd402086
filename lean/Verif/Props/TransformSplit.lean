import Verif.Props.TransformInv

/-! # C39: multi-variable splitting is a partition -/

namespace Opinf

open List

variable {K S : Type}

/-- Rows `i` of the whole state. -/
def Snap.row? (Y : Snap K) (i : Nat) : Option (List K) :=
  match Y with
  | .vec xs => xs[i]?.map fun x => [x]
  | .mat _ rows => rows[i]?

theorem Snap.row?_slice (Y : Snap K) (a n i : Nat) (hi : i < n) :
    (Y.slice a (a + n)).row? i = Y.row? (a + i) := by
  cases Y with
  | vec xs =>
    simp only [Snap.slice, Snap.row?, getElem?_drop]
    rw [getElem?_take_of_lt (by omega)]
  | mat k rows =>
    simp only [Snap.slice, Snap.row?, getElem?_drop]
    rw [getElem?_take_of_lt (by omega)]

theorem splitSizes_getElem? (ns : List Nat) (a : Nat) (Y : Snap K) (i : Nat) (hi : i < ns.length) :
    (splitSizes ns a Y)[i]? = some (Y.slice (a + (ns.take i).sum) (a + (ns.take i).sum + ns.getD i 0)) := by
  induction ns generalizing a i with
  | nil => simp at hi
  | cons n ns ih =>
    cases i with
    | zero => simp [splitSizes]
    | succ i =>
      simp only [splitSizes, getElem?_cons_succ, take_succ_cons, sum_cons, getD_cons_succ]
      rw [ih _ _ (by simpa using hi)]
      simp only [Nat.add_assoc]

theorem splitSizes_length (ns : List Nat) (a : Nat) (Y : Snap K) : (splitSizes ns a Y).length = ns.length := by
  induction ns generalizing a with
  | nil => rfl
  | cons n ns ih => simp [splitSizes, ih]

/-- C39: for variables of any sizes `ns`, `split` of a state of the total size returns one part per
variable, part `i` has `ns[i]` rows, its row `j` is row `ns[0] + ... + ns[i-1] + j` of the state, and
concatenating the parts gives the state back. -/
theorem C39_split_partition {I : TfI K S} {ts : List S} {ns : List Nat} (hne : ts ≠ [])
    (hd : Forall₂ (fun t n => I.dim t = some n) ts ns) (Y : Snap K) (c : Option Nat)
    (hY : Y.Shaped ns.sum c) : ∃ parts, multiSplit I ts Y = .ok parts ∧ parts.length = ts.length ∧
      Snap.concat parts = .ok Y ∧
      ∀ i P, parts[i]? = some P → P.Shaped (ns.getD i 0) c ∧
        ∀ j < ns.getD i 0, P.row? j = Y.row? ((ns.take i).sum + j) := by
  have hJ := joined_split hY (forall2_ne_nil hd hne)
  refine ⟨_, multiSplit_ok hd hY.len, by rw [splitSizes_length, hd.length_eq], hJ.concat, ?_⟩
  intro i P hP
  have hi : i < ns.length := by
    have := (List.getElem?_eq_some_iff.1 hP).1
    rwa [splitSizes_length] at this
  constructor
  · obtain ⟨h1, h2⟩ := List.getElem?_eq_some_iff.1 hP
    have := (forall₂_iff_get.1 hJ.parts).2 i h1 hi
    simp only [get_eq_getElem] at this
    rw [h2] at this
    rwa [getD_eq_getElem?_getD, getElem?_eq_getElem hi, Option.getD_some]
  · intro j hj
    rw [splitSizes_getElem? ns 0 Y i hi] at hP
    simp only [Option.some.injEq, Nat.zero_add] at hP
    rw [← hP, Snap.row?_slice _ _ _ _ hj]

theorem sizes_of {I : TfI K S} {ts : List S} {ns : List Nat}
    (hd : Forall₂ (fun t n => I.dim t = some n) ts ns) : (ts.map I.dim).map (·.getD 0) = ns :=
  (multiDim_eq hd).2.1

theorem sum_take_succ (ns : List Nat) (i : Nat) (hi : i < ns.length) :
    (ns.take (i + 1)).sum = (ns.take i).sum + ns.getD i 0 := by
  rw [take_succ_eq_append_getElem hi, sum_append, getD_eq_getElem?_getD, getElem?_eq_getElem hi]
  simp

theorem getVar_index {I : TfI K S} {names : List String} {ts : List S} {ns : List Nat}
    (hd : Forall₂ (fun t n => I.dim t = some n) ts ns) (Y : Snap K) (hY : Y.len = ns.sum) (i : Nat)
    (hi : i < ts.length) (var : Int ⊕ String) (hv : varIndex names var = .ok (i : Int)) :
    multiGetVar I names ts var Y = .ok (Y.slice (ns.take i).sum ((ns.take i).sum + ns.getD i 0)) := by
  have hin : i < ns.length := by rw [← hd.length_eq]; exact hi
  have hlen : ((range (ns.length + 1)).map fun i => (ns.take i).sum).length = ns.length + 1 := by simp
  have e1 : pyIndex (ns.length + 1) (i : Int) = .ok i := by
    simp only [pyIndex]
    rw [if_pos (by omega), if_pos (by omega)]
    simp
  have e2 : pyIndex (ns.length + 1) ((i : Int) + 1) = .ok (i + 1) := by
    simp only [pyIndex]
    rw [if_pos (by omega), if_pos (by omega)]
    simp only [Except.ok.injEq]
    omega
  simp only [multiGetVar, multiCheck, (multiDim_eq hd).1, hY, if_true, sizes_of hd, hlen, hv, e1, e2, bind,
    Except.bind, pure, Except.pure]
  congr 2
  · simp [getD_eq_getElem?_getD, show i < ns.length + 1 by omega]
  · rw [← sum_take_succ ns i hin]
    simp [getD_eq_getElem?_getD, show i + 1 < ns.length + 1 by omega]

/-- C39: `get_var(i)` is part `i` of `split`, for `i = 0, 1, ...`. -/
theorem C39_get_var {I : TfI K S} {names : List String} {ts : List S} {ns : List Nat}
    (hd : Forall₂ (fun t n => I.dim t = some n) ts ns) (Y : Snap K) (hY : Y.len = ns.sum) (i : Nat)
    (hi : i < ts.length) : ∃ parts P, multiSplit I ts Y = .ok parts ∧ parts[i]? = some P ∧
      multiGetVar I names ts (.inl i) Y = .ok P := by
  have hin : i < ns.length := by rw [← hd.length_eq]; exact hi
  refine ⟨_, _, multiSplit_ok hd hY, splitSizes_getElem? ns 0 Y i hin, ?_⟩
  rw [getVar_index hd Y hY i hi (.inl i) rfl, Nat.zero_add]

/-- C39: `get_var(name)` is the part of the first variable of this name; other names are rejected. -/
theorem C39_get_var_name {I : TfI K S} {names : List String} {ts : List S} {ns : List Nat}
    (hn : names.length = ts.length) (hd : Forall₂ (fun t n => I.dim t = some n) ts ns) (Y : Snap K)
    (hY : Y.len = ns.sum) (v : String) :
    multiGetVar I names ts (.inr v) Y =
      if v ∈ names then multiGetVar I names ts (.inl (names.idxOf v)) Y else .error .index := by
  by_cases hv : v ∈ names
  · have hi : names.idxOf v < ts.length := hn ▸ idxOf_lt_length_of_mem hv
    rw [if_pos hv, getVar_index hd Y hY _ hi (.inr v) (by simp [varIndex, hv]),
      getVar_index hd Y hY _ hi (.inl _) rfl]
  · rw [if_neg hv]
    simp [multiGetVar, multiCheck, (multiDim_eq hd).1, hY, varIndex, hv, bind, Except.bind]

/-- C39: states of a wrong length are rejected by `split` and `get_var`, and so are all states before
the sizes are known. -/
theorem C39_wrong_length_rejected {I : TfI K S} {names : List String} {ts : List S} {ns : List Nat}
    (hd : Forall₂ (fun t n => I.dim t = some n) ts ns) (Y : Snap K) (hY : Y.len ≠ ns.sum)
    (var : Int ⊕ String) : multiSplit I ts Y = .error .dimensionality ∧
      multiGetVar I names ts var Y = .error .dimensionality := by
  refine ⟨multiSplit_bad hd hY, ?_⟩
  simp only [multiGetVar, multiCheck, (multiDim_eq hd).1, hY, if_false, bind, Except.bind]

/-- Before all sizes are known, nothing is split. -/
theorem C39_unknown_sizes_rejected {I : TfI K S} {names : List String} {ts : List S} {t : S} (ht : t ∈ ts)
    (hd : I.dim t = none) (Y : Snap K) (var : Int ⊕ String) :
    multiSplit I ts Y = .error .attribute ∧ multiGetVar I names ts var Y = .error .attribute := by
  have h : multiDim I ts = none := by
    unfold multiDim
    rw [Option.map_eq_none_iff]
    induction ts with
    | nil => simp at ht
    | cons u us ih =>
      rcases mem_cons.1 ht with rfl | hm
      · simp [mapM_cons, hd]
      · simp [mapM_cons, ih hm]
  simp [multiSplit, multiGetVar, multiCheck, h, bind, Except.bind]

/-- Counting variables from the end, as for Python sequences, does not work: `get_var(-1)` returns no
rows at all, whatever the state (there is no error). -/
theorem C39_get_var_minus_one_empty {I : TfI K S} {names : List String} {ts : List S} {ns : List Nat}
    (hd : Forall₂ (fun t n => I.dim t = some n) ts ns) (Y : Snap K) (hY : Y.len = ns.sum) :
    ∃ P, multiGetVar I names ts (.inl (-1)) Y = .ok P ∧ P.len = 0 := by
  have hlen : ((range (ns.length + 1)).map fun i => (ns.take i).sum).length = ns.length + 1 := by simp
  have e1 : pyIndex (ns.length + 1) (-1 : Int) = .ok ns.length := by
    simp only [pyIndex]
    rw [if_neg (by omega), if_pos (by omega)]
    simp
  have e2 : pyIndex (ns.length + 1) ((-1 : Int) + 1) = .ok 0 := by
    simp only [pyIndex]
    rw [if_pos (by omega), if_pos (by omega)]
    simp
  simp only [multiGetVar, multiCheck, (multiDim_eq hd).1, hY, if_true, sizes_of hd, hlen, varIndex, e1, e2,
    bind, Except.bind, pure, Except.pure]
  refine ⟨_, rfl, ?_⟩
  have h0 : ((range (ns.length + 1)).map fun i => (ns.take i).sum).getD 0 0 = 0 := by
    simp [getD_eq_getElem?_getD]
  rw [h0]
  cases Y <;> simp [Snap.slice, Snap.len]

-- Non-vacuity: three variables of sizes 2, 1 and 3.
example : multiSplit (nullI (K := ℚ)) [⟨some 2, none⟩, ⟨some 1, none⟩, ⟨some 3, none⟩]
    (.vec [1, 2, 3, 4, 5, 6]) = .ok [.vec [1, 2], .vec [3], .vec [4, 5, 6]] := by decide +kernel

example : multiGetVar (nullI (K := ℚ)) ["p", "q"] [⟨some 2, none⟩, ⟨some 1, none⟩] (.inr "q")
    (.vec [1, 2, 3]) = .ok (.vec [3]) := by decide +kernel

end Opinf
