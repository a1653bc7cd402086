import Verif.Model.MultiShared
import Mathlib.Data.List.Nodup
import Mathlib.Algebra.Order.Ring.Rat
import Mathlib.Algebra.Field.Rat

/-!
# C124: the variables of a multi-variable basis are independent

Specification: the model of multi-variable bases as lists of values (`basisMultiMake`, `basisMultiFit`), where nothing is
shared. `Reads H refs bs`: the objects `refs` have the contents `bs`.
-/

namespace Opinf

open List

variable {K S : Type}

/-- The objects `refs` exist and have the contents `bs`. -/
def Reads (H : List S) (refs : List Nat) (bs : List S) : Prop := refs.map (H[·]?) = bs.map some

/-- The loop over values. -/
def valueLoop : List S → List (S → S × Except Err Unit) → List S × Except Err Unit
  | b :: bs, f :: fs =>
    match f b with
    | (b', .error e) => (b' :: bs, .error e)
    | (b', .ok ()) => (b' :: (valueLoop bs fs).1, (valueLoop bs fs).2)
  | bs, _ => (bs, .ok ())

theorem Reads.read {H : List S} {refs : List Nat} {bs : List S} (h : Reads H refs bs) : heapRead H refs = bs := by
  have e : heapRead H refs = (refs.map (H[·]?)).filterMap id := by
    rw [filterMap_map]
    rfl
  rw [e, h, filterMap_map]
  simp

theorem Reads.length {H : List S} {refs : List Nat} {bs : List S} (h : Reads H refs bs) : refs.length = bs.length := by
  simpa using congrArg List.length h

theorem Reads.cons_inv {H : List S} {p : Nat} {refs : List Nat} {bs : List S} (h : Reads H (p :: refs) bs) :
    ∃ b bs', bs = b :: bs' ∧ H[p]? = some b ∧ Reads H refs bs' := by
  cases bs with
  | nil => cases h
  | cons b bs' =>
    simp only [Reads, map_cons, cons.injEq] at h
    exact ⟨b, bs', rfl, h.1, h.2⟩

theorem Reads.congr {H H' : List S} {refs : List Nat} {bs : List S} (h : Reads H refs bs)
    (he : ∀ q ∈ refs, H'[q]? = H[q]?) : Reads H' refs bs := by
  rw [Reads, ← h]
  exact map_congr_left he

/-- A loop does not touch other objects. -/
theorem heapLoop_frame (refs : List Nat) (fs : List (S → S × Except Err Unit)) (H : List S) (q : Nat) (hq : q ∉ refs) :
    (heapLoop refs fs H).1[q]? = H[q]? := by
  induction refs generalizing fs H with
  | nil => cases fs <;> rfl
  | cons p ps ih =>
    have hqp : p ≠ q := fun e => hq (e ▸ mem_cons_self)
    have hqs : q ∉ ps := fun e => hq (mem_cons_of_mem _ e)
    cases fs with
    | nil => rfl
    | cons f fs =>
      rw [heapLoop]
      cases hp : H[p]? with
      | none => rfl
      | some b =>
        simp only
        rcases hf : f b with ⟨b', e⟩
        cases e with
        | error e => simp [getElem?_set_ne hqp]
        | ok u =>
          simp only
          rw [ih fs _ hqs, getElem?_set_ne hqp]

/-- For different objects a loop does what it does for values. -/
theorem heapLoop_reads (refs : List Nat) (hn : refs.Nodup) (fs : List (S → S × Except Err Unit)) (H : List S) (bs : List S)
    (h : Reads H refs bs) :
    Reads (heapLoop refs fs H).1 refs (valueLoop bs fs).1 ∧ (heapLoop refs fs H).2 = (valueLoop bs fs).2 := by
  induction refs generalizing fs H bs with
  | nil =>
    cases bs with
    | nil => cases fs <;> exact ⟨rfl, rfl⟩
    | cons b bs => cases h
  | cons p ps ih =>
    obtain ⟨b, bs', rfl, hb, h'⟩ := h.cons_inv
    obtain ⟨hp, hn'⟩ := nodup_cons.1 hn
    cases fs with
    | nil => exact ⟨h, rfl⟩
    | cons f fs =>
      rw [heapLoop, valueLoop, hb]
      simp only
      have hlt : p < H.length := by
        by_contra hc
        rw [getElem?_eq_none (by omega)] at hb
        cases hb
      rcases hf : f b with ⟨b', e⟩
      have hr : Reads (H.set p b') ps bs' := h'.congr fun q hq => getElem?_set_ne (fun e : p = q => hp (e ▸ hq))
      have hs : (H.set p b')[p]? = some b' := by simp [hlt]
      cases e with
      | error e =>
        refine ⟨?_, rfl⟩
        simp only [Reads, map_cons]
        rw [hs, hr]
      | ok u =>
        simp only
        obtain ⟨i1, i2⟩ := ih hn' fs _ _ hr
        refine ⟨?_, i2⟩
        simp only [Reads, map_cons]
        rw [i1, heapLoop_frame ps fs _ p hp, hs]

theorem valueLoop_fit (I : BasI K S) (bs : List S) (Ps : List (Snap K)) :
    valueLoop bs (Ps.map fun P b => I.fit b P) = fitEach I bs Ps := by
  induction bs generalizing Ps with
  | nil => cases Ps <;> rfl
  | cons b bs ih =>
    cases Ps with
    | nil => rfl
    | cons P Ps =>
      rw [map_cons, valueLoop, fitEach]
      rcases I.fit b P with ⟨b', e⟩
      cases e with
      | error e => rfl
      | ok u => simp only [ih]

theorem valueLoop_sizes (I : BasI K S) (bs : List S) (ns : List Nat) (h : ns.length = bs.length) :
    valueLoop bs (ns.map fun n b => (I.setN b n, .ok ())) = (zipWith (fun b n => I.setN b n) bs ns, .ok ()) := by
  induction bs generalizing ns with
  | nil =>
    cases ns with
    | nil => rfl
    | cons n ns => cases h
  | cons b bs ih =>
    cases ns with
    | nil => cases h
    | cons n ns =>
      rw [map_cons, valueLoop]
      simp only [ih ns (by simpa using h), zipWith_cons_cons]

theorem valueLoop_equal (I : BasI K S) (bs : List S) (refs : List Nat) (h : refs.length = bs.length) (n : Nat) :
    valueLoop bs (refs.map fun _ b => (I.setN b n, .ok ())) = (bs.map fun b => I.setN b n, .ok ()) := by
  induction bs generalizing refs with
  | nil =>
    cases refs with
    | nil => rfl
    | cons p refs => cases h
  | cons b bs ih =>
    cases refs with
    | nil => cases h
    | cons p refs =>
      rw [map_cons, valueLoop]
      simp only [ih refs (by simpa using h), map_cons]

theorem valueLoop_names (I : BasI K S) (bs : List S) (k : Nat) :
    valueLoop bs ((range' k bs.length).map (nameStep I)) =
      (bs.mapIdx fun i b => if (I.name b).isNone then I.setName b (some s!"variable {i + k}") else b, .ok ()) := by
  induction bs generalizing k with
  | nil => rfl
  | cons b bs ih =>
    rw [length_cons, range'_succ, map_cons, valueLoop, nameStep]
    simp only [ih (k + 1), mapIdx_cons, Nat.zero_add]
    congr 3
    funext i b
    rw [Nat.add_right_comm, Nat.add_assoc]

/-! ### The refinement -/

/-- The bases after a call of the constructor, whether it fails or not. -/
def madeBases (I : BasI K S) (bs : List S) (sizes : Option (List Nat)) : List S :=
  match basisMultiMake I bs sizes with
  | .ok bs' => bs'
  | .error _ => basisNames I bs

theorem heapMake_reads (I : BasI K S) (refs : List Nat) (hn : refs.Nodup) (sizes : Option (List Nat)) (H : List S)
    (bs : List S) (h : Reads H refs bs) :
    Reads (heapMake I refs sizes H).1 refs (madeBases I bs sizes) ∧
      (heapMake I refs sizes H).2 = (basisMultiMake I bs sizes).map fun _ => () := by
  have hl := h.length
  unfold heapMake madeBases basisMultiMake
  by_cases he : bs = []
  · subst he
    have : refs = [] := length_eq_zero_iff.1 hl
    subst this
    exact ⟨rfl, rfl⟩
  have he' : bs.isEmpty = false := by simpa using he
  have hr' : refs.isEmpty = false := by
    cases refs with
    | nil => exact absurd (length_eq_zero_iff.1 hl.symm) he
    | cons p ps => rfl
  simp only [he', hr', Bool.false_eq_true, if_false]
  obtain ⟨a1, a2⟩ := heapLoop_reads refs hn ((range refs.length).map (nameStep I)) H bs h
  have hv : valueLoop bs ((range refs.length).map (nameStep I)) = (basisNames I bs, .ok ()) := by
    rw [hl, range_eq_range', valueLoop_names]
    simp only [Nat.add_zero]
    rfl
  rw [hv] at a1 a2
  rcases hx : heapLoop refs ((range refs.length).map (nameStep I)) H with ⟨H1, o⟩
  rw [hx] at a1 a2
  simp only at a1 a2
  subst a2
  simp only
  cases sizes with
  | none => exact ⟨a1, rfl⟩
  | some ns =>
    simp only
    by_cases hs : ns.length = bs.length
    · rw [if_neg (by rw [hl]; simpa using hs), if_neg (by simpa using hs)]
      have hbl : (basisNames I bs).length = bs.length := by simp [basisNames]
      obtain ⟨b1, b2⟩ := heapLoop_reads refs hn (ns.map fun n b => (I.setN b n, .ok ())) H1 _ a1
      rw [valueLoop_sizes I _ ns (hs.trans hbl.symm)] at b1 b2
      exact ⟨b1, b2⟩
    · rw [if_pos (by rw [hl]; simpa using hs), if_pos (by simpa using hs)]
      exact ⟨a1, rfl⟩

theorem heapFitParts_reads (I : BasI K S) (refs : List Nat) (hn : refs.Nodup) (Y : Snap K) (H : List S) (bs : List S)
    (h : Reads H refs bs) (bs' : List S) (e : Except Err Unit)
    (hv : (match (do basisCheck (sizesSum I.n bs) Y; basisSplit I bs Y : Except Err (List (Snap K))) with
      | .error e => (bs, .error e)
      | .ok parts => fitEach I bs parts) = (bs', e)) :
    Reads (heapFitParts I refs Y H).1 refs bs' ∧ (heapFitParts I refs Y H).2 = e := by
  unfold heapFitParts
  rw [h.read]
  cases hp : (do basisCheck (sizesSum I.n bs) Y; basisSplit I bs Y : Except Err (List (Snap K))) with
  | error x =>
    rw [hp] at hv
    cases hv
    exact ⟨h, rfl⟩
  | ok parts =>
    rw [hp] at hv
    simp only at hv ⊢
    have := heapLoop_reads refs hn (parts.map fun P b => I.fit b P) H bs h
    rw [valueLoop_fit, hv] at this
    exact this

theorem heapFit_reads (I : BasI K S) (refs : List Nat) (hn : refs.Nodup) (Y : Snap K) (H : List S) (bs : List S)
    (h : Reads H refs bs) :
    Reads (heapFit I refs Y H).1 refs (basisMultiFit I bs Y).1 ∧ (heapFit I refs Y H).2 = (basisMultiFit I bs Y).2 := by
  unfold heapFit basisMultiFit basisSizes
  rw [h.read, h.length]
  cases hs : sizesSum I.n bs with
  | some n =>
    simp only
    refine heapFitParts_reads I refs hn Y H bs h _ _ ?_
    rw [hs]
    rfl
  | none =>
    simp only
    by_cases hm : Y.len % bs.length = 0
    · rw [if_neg (by simpa using hm), if_neg (by simpa using hm)]
      obtain ⟨a1, a2⟩ := heapLoop_reads refs hn (refs.map fun _ b => (I.setN b (Y.len / bs.length), .ok ())) H bs h
      rw [valueLoop_equal I bs refs h.length] at a1 a2
      rcases hx : heapLoop refs (refs.map fun _ b => (I.setN b (Y.len / bs.length), .ok ())) H with ⟨H1, o⟩
      rw [hx] at a1 a2
      simp only at a1 a2
      subst a2
      simp only
      exact heapFitParts_reads I refs hn Y H1 _ a1 _ _ rfl
    · rw [if_pos (by simpa using hm), if_pos (by simpa using hm)]
      exact ⟨h, rfl⟩

theorem heapMake_frame (I : BasI K S) (refs : List Nat) (sizes : Option (List Nat)) (H : List S) (q : Nat)
    (hq : q ∉ refs) : (heapMake I refs sizes H).1[q]? = H[q]? := by
  unfold heapMake
  split
  · rfl
  · have a := heapLoop_frame refs ((range refs.length).map (nameStep I)) H q hq
    generalize heapLoop refs ((range refs.length).map (nameStep I)) H = x at a ⊢
    obtain ⟨H1, o⟩ := x
    cases o with
    | error e => exact a
    | ok u =>
      cases sizes with
      | none => exact a
      | some ns =>
        simp only
        split
        · exact a
        · rw [heapLoop_frame _ _ _ q hq]
          exact a

theorem heapFitParts_frame (I : BasI K S) (refs : List Nat) (Y : Snap K) (H : List S) (q : Nat) (hq : q ∉ refs) :
    (heapFitParts I refs Y H).1[q]? = H[q]? := by
  unfold heapFitParts
  split
  · rfl
  · exact heapLoop_frame _ _ _ q hq

theorem heapFit_frame (I : BasI K S) (refs : List Nat) (Y : Snap K) (H : List S) (q : Nat) (hq : q ∉ refs) :
    (heapFit I refs Y H).1[q]? = H[q]? := by
  unfold heapFit
  split
  · exact heapFitParts_frame I refs Y H q hq
  · split
    · rfl
    · have a := heapLoop_frame refs (refs.map fun _ b => (I.setN b (Y.len / refs.length), .ok ())) H q hq
      generalize heapLoop refs (refs.map fun _ b => (I.setN b (Y.len / refs.length), .ok ())) H = x at a ⊢
      obtain ⟨H1, o⟩ := x
      cases o with
      | error e => exact a
      | ok u => exact (heapFitParts_frame I refs Y H1 q hq).trans a

/-! ### Property theorems -/

def MultiCall.refs : MultiCall K → List Nat
  | .make refs _ => refs
  | .fit refs _ => refs

/-- What the calls for one multi-variable basis make of its bases, without any other objects. -/
def ownCalls (I : BasI K S) (refs : List Nat) : List (MultiCall K) → List S → List S
  | [], bs => bs
  | .make rs sizes :: cs, bs => ownCalls I refs cs (if rs = refs then madeBases I bs sizes else bs)
  | .fit rs Y :: cs, bs => ownCalls I refs cs (if rs = refs then (basisMultiFit I bs Y).1 else bs)

/-- **C124** (independence). A multi-variable basis of different basis objects does what the list of these bases does,
and after any sequence of constructor calls and trainings of multi-variable bases without objects in common it is what its
own calls make of it. -/
theorem C124_independent (I : BasI K S) (refs : List Nat) (hn : refs.Nodup) (cs : List (MultiCall K))
    (hc : ∀ c ∈ cs, c.refs = refs ∨ c.refs.Disjoint refs) (H : List S) (bs : List S) (h : Reads H refs bs) :
    Reads (runCalls I cs H) refs (ownCalls I refs cs bs) := by
  induction cs generalizing H bs with
  | nil => exact h
  | cons c cs ih =>
    have hc' : ∀ c ∈ cs, c.refs = refs ∨ c.refs.Disjoint refs := fun x hx => hc x (mem_cons_of_mem _ hx)
    have h0 := hc c mem_cons_self
    cases c with
    | make rs sizes =>
      rw [runCalls, ownCalls]
      refine ih hc' _ _ ?_
      by_cases e : rs = refs
      · subst e
        rw [if_pos rfl]
        exact (heapMake_reads I rs hn sizes H bs h).1
      · rw [if_neg e]
        rcases h0 with h0 | h0
        · exact absurd h0 e
        · exact h.congr fun q hq => heapMake_frame I rs sizes H q fun hx => h0 hx hq
    | fit rs Y =>
      rw [runCalls, ownCalls]
      refine ih hc' _ _ ?_
      by_cases e : rs = refs
      · subst e
        rw [if_pos rfl]
        exact (heapFit_reads I rs hn Y H bs h).1
      · rw [if_neg e]
        rcases h0 with h0 | h0
        · exact absurd h0 e
        · exact h.congr fun q hq => heapFit_frame I rs Y H q fun hx => h0 hx hq

/-- **C124** (outcomes). For different objects the constructor and `fit` raise what they raise for values. -/
theorem C124_outcomes (I : BasI K S) (refs : List Nat) (hn : refs.Nodup) (H : List S) (bs : List S) (h : Reads H refs bs) :
    (∀ sizes, (heapMake I refs sizes H).2 = (basisMultiMake I bs sizes).map fun _ => ()) ∧
      (∀ Y, (heapFit I refs Y H).2 = (basisMultiFit I bs Y).2) :=
  ⟨fun sizes => (heapMake_reads I refs hn sizes H bs h).2, fun Y => (heapFit_reads I refs hn Y H bs h).2⟩

theorem defaultName_inj {i j : Nat} (h : s!"variable {i}" = s!"variable {j}") : i = j := by
  have h' : i.repr = j.repr := by
    have e : ∀ k : Nat, s!"variable {k}" = "variable " ++ k.repr := fun k => by
      simp [toString]
    rw [e, e] at h
    exact (String.append_right_inj _).1 h
  have h2 : Nat.toDigits 10 i = Nat.toDigits 10 j := by
    rw [← Nat.toList_repr, ← Nat.toList_repr, h']
  have h3 := congrArg (fun l => Nat.ofDigitChars 10 l 0) h2
  simpa using h3

/-- **C124** (names). For different objects with names, `multi[name]` is the variable of that name, for all variables, if
and only if the names are different. -/
theorem C124_names_iff (I : BasI K S) (refs : List Nat) (hn : refs.Nodup) (H : List S) (bs : List S) (h : Reads H refs bs)
    (names : List String) (hnm : bs.map I.name = names.map some) :
    (∀ i : Nat, i < refs.length → heapItem I refs H (names.getD i "") = .ok (refs.getD i 0)) ↔ names.Nodup := by
  have hN : heapNames I refs H = names := by
    have e : bs.filterMap I.name = (bs.map I.name).filterMap id := by
      rw [filterMap_map]
      rfl
    rw [heapNames, h.read, e, hnm, filterMap_map]
    simp
  have hl : names.length = refs.length := by
    have := congrArg List.length hnm
    simp only [length_map] at this
    rw [h.length, this]
  unfold heapItem
  rw [hN]
  constructor
  · intro ha
    rw [List.nodup_iff_injective_getElem]
    rintro ⟨i, hi⟩ ⟨j, hj⟩ hij
    simp only at hij
    have hi' : names.getD i "" = names[i] := by rw [getD_eq_getElem?_getD, getElem?_eq_getElem hi]; rfl
    have hj' : names.getD j "" = names[j] := by rw [getD_eq_getElem?_getD, getElem?_eq_getElem hj]; rfl
    have h1 := ha i (hl ▸ hi)
    have h2 := ha j (hl ▸ hj)
    rw [hi', hij] at h1
    rw [hj'] at h2
    have h3 : refs.getD i 0 = refs.getD j 0 := Except.ok.inj (h1.symm.trans h2)
    have hi2 : i < refs.length := hl ▸ hi
    have hj2 : j < refs.length := hl ▸ hj
    rw [getD_eq_getElem?_getD, getD_eq_getElem?_getD, getElem?_eq_getElem hi2, getElem?_eq_getElem hj2] at h3
    simp only [Option.getD_some] at h3
    simpa using (List.Nodup.getElem_inj_iff hn).1 h3
  · intro hnd i hi
    have hi1 : i < names.length := hl.symm ▸ hi
    have hi' : names.getD i "" = names[i] := by rw [getD_eq_getElem?_getD, getElem?_eq_getElem hi1]; rfl
    rw [hi', if_pos (getElem_mem hi1), hnd.idxOf_getElem i hi1]

/-- **C124** (default names). Different objects without names can be found by their default names. -/
theorem C124_default_names (I : BasI K S) (hI : ∀ b nm, I.name (I.setName b nm) = nm) (refs : List Nat) (hn : refs.Nodup)
    (hne : refs ≠ []) (H : List S) (bs : List S) (h : Reads H refs bs) (hu : ∀ b ∈ bs, I.name b = none) (i : Nat)
    (hi : i < refs.length) :
    heapItem I refs (heapMake I refs none H).1 s!"variable {i}" = .ok (refs.getD i 0) := by
  obtain ⟨a1, _⟩ := heapMake_reads I refs hn none H bs h
  have hb : bs ≠ [] := by
    intro e
    have := h.length
    rw [e] at this
    exact hne (length_eq_zero_iff.1 this)
  have hm : madeBases I bs none = basisNames I bs := by
    unfold madeBases basisMultiMake
    simp [hb]
  rw [hm] at a1
  have hnm : (basisNames I bs).map I.name = ((range bs.length).map fun i => s!"variable {i}").map some := by
    refine ext_getElem (by simp [basisNames]) fun j h1 h2 => ?_
    have hj : j < bs.length := by simpa [basisNames] using h1
    simp [basisNames, hu _ (getElem_mem hj), hI]
  have := (C124_names_iff I refs hn _ _ a1 _ hnm).2
    (Nodup.map (fun a b hab => defaultName_inj hab) (nodup_range)) i hi
  rw [getD_eq_getElem?_getD, getElem?_eq_getElem (by simpa [← h.length] using hi)] at this
  simpa using this

/-- **C124** (negation: shared training). If one object is given for two variables, both variables use what `fit` made of
it for the second variable. -/
theorem C124_shared_fit (I : BasI K S) (p n : Nat) (b : S) (H : List S) (hp : H[p]? = some b) (hb : I.n b = some n)
    (Y P Q : Snap K) (hY : Y.len = n + n) (hs : splitSizes [n, n] 0 Y = [P, Q])
    (hforget : ∀ c d Z, (I.fit c Z).1 = (I.fit d Z).1) (hfit : (I.fit b P).2 = .ok ()) :
    heapRead (heapFit I [p, p] Y H).1 [p, p] = [(I.fit b Q).1, (I.fit b Q).1] := by
  have hlt : p < H.length := by
    by_contra hc
    rw [getElem?_eq_none (by omega)] at hp
    cases hp
  have hr : heapRead H [p, p] = [b, b] := by simp [heapRead, hp]
  have hz : sizesSum I.n [b, b] = some (n + n) := by simp [sizesSum, hb]
  have hsp : basisSplit I [b, b] Y = .ok [P, Q] := by
    simp only [basisSplit, checkIsReduced, hz, hY, if_true, bind, Except.bind, pure, Except.pure, map_cons, map_nil, hb,
      Bool.false_eq_true, if_false, Option.getD_some, hs]
  unfold heapFit
  rw [hr, hz]
  simp only
  unfold heapFitParts
  rw [hr, hz]
  have hck : (do basisCheck (some (n + n)) Y; basisSplit I [b, b] Y : Except Err (List (Snap K))) = .ok [P, Q] := by
    simp only [basisCheck, hY, if_true, bind, Except.bind, hsp]
  rw [hck]
  simp only [map_cons, map_nil]
  rw [heapLoop, hp]
  simp only
  rcases hf : I.fit b P with ⟨b1, e1⟩
  rw [hf] at hfit
  simp only at hfit
  subst hfit
  simp only
  have h1 : (H.set p b1)[p]? = some b1 := by simp [hlt]
  rw [heapLoop, h1]
  simp only
  have h2 := hforget b1 b Q
  rcases hg : I.fit b1 Q with ⟨b2, e2⟩
  rw [hg] at h2
  simp only at h2
  cases e2 with
  | error e => simp [heapRead, hlt, h2]
  | ok u => simp [heapLoop, heapRead, hlt, h2]

/-- **C124** (negation: names of shared objects). If one object without a name is given for two variables, there is no
variable with the default name of the second. -/
theorem C124_shared_names (I : BasI K S) (hI : ∀ b nm, I.name (I.setName b nm) = nm) (p : Nat) (b : S) (H : List S)
    (hp : H[p]? = some b) (hb : I.name b = none) :
    heapNames I [p, p] (heapMake I [p, p] none H).1 = ["variable 0", "variable 0"] ∧
      heapItem I [p, p] (heapMake I [p, p] none H).1 "variable 1" = .error .type := by
  have hlt : p < H.length := by
    by_contra hc
    rw [getElem?_eq_none (by omega)] at hp
    cases hp
  have e0 : toString "variable " ++ Nat.repr 0 = "variable 0" := by decide
  have key : heapNames I [p, p] (heapMake I [p, p] none H).1 = ["variable 0", "variable 0"] := by
    have hpe : H[p] = b := by
      rw [getElem?_eq_getElem hlt] at hp
      exact Option.some.inj hp
    have hx : (heapMake I [p, p] none H).1 = H.set p (I.setName b (some "variable 0")) := by
      simp [heapMake, heapLoop, nameStep, hpe, hb, hlt, hI, range_succ, e0]
    rw [hx]
    simp [heapNames, heapRead, hlt, hI]
  refine ⟨key, ?_⟩
  unfold heapItem
  rw [key, if_neg (by decide)]

/-- **C124** (negation: default names of objects used again). If the two bases of a multi-variable basis are used, in the
opposite order, for another one, their default names stay: in the second one `variable 0` is the second variable. -/
theorem C124_reused_names (I : BasI K S) (hI : ∀ b nm, I.name (I.setName b nm) = nm) (p q : Nat) (hpq : p ≠ q) (b c : S)
    (H : List S) (hp : H[p]? = some b) (hq : H[q]? = some c) (hb : I.name b = none) (hc : I.name c = none) :
    heapItem I [q, p] (runCalls I [.make [p, q] none, .make [q, p] none] H) "variable 0" = .ok p ∧
      (∀ Y : Snap K, basisGetVar I (heapRead (runCalls I [.make [p, q] none, .make [q, p] none] H) [q, p])
          (.inr "variable 0") Y =
        basisGetVar I (heapRead (runCalls I [.make [p, q] none, .make [q, p] none] H) [q, p]) (.inl 1) Y) := by
  have e0 : toString "variable " ++ Nat.repr 0 = "variable 0" := by decide
  have e1 : toString "variable " ++ Nat.repr 1 = "variable 1" := by decide
  have hn : [p, q].Nodup := by simp [hpq]
  have hn' : [q, p].Nodup := by simpa using fun e : q = p => hpq e.symm
  have h : Reads H [p, q] [b, c] := by simp [Reads, hp, hq]
  obtain ⟨a1, _⟩ := heapMake_reads I [p, q] hn none H _ h
  have hm : madeBases I [b, c] none = [I.setName b (some "variable 0"), I.setName c (some "variable 1")] := by
    simp [madeBases, basisMultiMake, basisNames, hb, hc, e0, e1]
  rw [hm] at a1
  have a2 : Reads (heapMake I [p, q] none H).1 [q, p] [I.setName c (some "variable 1"), I.setName b (some "variable 0")] := by
    simp only [Reads, map_cons, map_nil, cons.injEq, and_true] at a1 ⊢
    exact ⟨a1.2, a1.1⟩
  obtain ⟨a3, _⟩ := heapMake_reads I [q, p] hn' none _ _ a2
  have hm' : madeBases I [I.setName c (some "variable 1"), I.setName b (some "variable 0")] none =
      [I.setName c (some "variable 1"), I.setName b (some "variable 0")] := by
    simp [madeBases, basisMultiMake, basisNames, hI]
  rw [hm'] at a3
  have hrun : runCalls I [.make [p, q] none, .make [q, p] none] H =
      (heapMake I [q, p] none (heapMake I [p, q] none H).1).1 := rfl
  rw [hrun]
  constructor
  · unfold heapItem heapNames
    rw [a3.read]
    have : [I.setName c (some "variable 1"), I.setName b (some "variable 0")].filterMap I.name =
        ["variable 1", "variable 0"] := by simp [hI]
    rw [this]
    have hx : (["variable 1", "variable 0"] : List String).idxOf "variable 0" = 1 := by decide
    rw [hx]
    simp
  · intro Y
    rw [a3.read]
    have hv : varIndex ([I.setName c (some "variable 1"), I.setName b (some "variable 0")].filterMap I.name)
        (.inr "variable 0") = .ok 1 := by
      have : [I.setName c (some "variable 1"), I.setName b (some "variable 0")].filterMap I.name =
        ["variable 1", "variable 0"] := by simp [hI]
      rw [this]
      decide
    unfold basisGetVar
    rw [hv]
    rfl

/-! ### Pipelines -/

theorem heapChainFit_frame (f : S → Bool → Snap K → S × Buf K) (refs : List Nat) (b : Bool) (Y : Snap K) (H : List S)
    (q : Nat) (hq : q ∉ refs) : (heapChainFit f refs b Y H).1[q]? = H[q]? := by
  induction refs generalizing b Y H with
  | nil => rfl
  | cons p ps ih =>
    have hqp : p ≠ q := fun e => hq (e ▸ mem_cons_self)
    have hqs : q ∉ ps := fun e => hq (mem_cons_of_mem _ e)
    rw [heapChainFit]
    cases hp : H[p]? with
    | none => rfl
    | some t =>
      simp only
      rcases hf : f t b Y with ⟨t', Y', e⟩
      cases e with
      | error e => simp [getElem?_set_ne hqp]
      | ok Z =>
        simp only
        rw [ih true Z _ hqs, getElem?_set_ne hqp]

/-- **C124** (pipelines). A pipeline of different transformer objects is trained like the list of these transformers, and no
other object changes. -/
theorem C124_pipeline (f : S → Bool → Snap K → S × Buf K) (refs : List Nat) (hn : refs.Nodup) (b : Bool) (Y : Snap K)
    (H : List S) (ts : List S) (h : Reads H refs ts) :
    Reads (heapChainFit f refs b Y H).1 refs (chainFit f ts b Y).1 ∧
      (heapChainFit f refs b Y H).2 = (chainFit f ts b Y).2 ∧
      (∀ q, q ∉ refs → (heapChainFit f refs b Y H).1[q]? = H[q]?) := by
  refine ⟨?_, ?_, fun q hq => heapChainFit_frame f refs b Y H q hq⟩ <;>
  · induction refs generalizing b Y H ts with
    | nil =>
      cases ts with
      | nil => rfl
      | cons t ts => cases h
    | cons p ps ih =>
      obtain ⟨t, ts', rfl, ht, h'⟩ := h.cons_inv
      obtain ⟨hp, hn'⟩ := nodup_cons.1 hn
      rw [heapChainFit, chainFit, ht]
      simp only
      have hlt : p < H.length := by
        by_contra hc
        rw [getElem?_eq_none (by omega)] at ht
        cases ht
      rcases hf : f t b Y with ⟨t', Y', e⟩
      have hr : Reads (H.set p t') ps ts' := h'.congr fun q hq => getElem?_set_ne (fun e : p = q => hp (e ▸ hq))
      have hs : (H.set p t')[p]? = some t' := by simp [hlt]
      cases e with
      | error e =>
        first
          | rfl
          | (simp only [Reads, map_cons]; rw [hs, hr])
      | ok Z =>
        have := ih hn' true Z _ _ hr
        simp only
        first
          | rw [this]
          | (simp only [Reads, map_cons]; rw [this, heapChainFit_frame f ps true Z _ p hp, hs])

/-- **C124** (negation: pipelines). A transformer object that occurs twice in a pipeline is trained twice; afterwards both
steps apply what the second training gave. -/
theorem C124_pipeline_shared (f : S → Bool → Snap K → S × Buf K) (p : Nat) (t t1 t2 : S) (H : List S) (hp : H[p]? = some t)
    (Y Y' Z Z' W : Snap K) (h1 : f t false Y = (t1, Y', .ok Z)) (h2 : f t1 true Z = (t2, Z', .ok W)) :
    (heapChainFit f [p, p] false Y H).2.2 = .ok W ∧ heapRead (heapChainFit f [p, p] false Y H).1 [p, p] = [t2, t2] := by
  have hlt : p < H.length := by
    by_contra hc
    rw [getElem?_eq_none (by omega)] at hp
    cases hp
  have h3 : (H.set p t1)[p]? = some t1 := by simp [hlt]
  have hx : heapChainFit f [p, p] false Y H = ((H.set p t1).set p t2, Y', .ok W) := by
    rw [heapChainFit, hp]
    simp only [h1]
    rw [heapChainFit, h3]
    simp only [h2]
    rw [heapChainFit]
    simp
  rw [hx]
  exact ⟨rfl, by simp [heapRead, hlt]⟩

/-- A centering transformer that has not been trained. -/
def centerEx : Sst ℚ := ⟨true, none, false, none, false, none, none, none, none⟩

/-- **C124** (negation: a pipeline is not consistent with itself). For a centering transformer that occurs twice,
`fit_transform(states)` and `transform(states)` differ. -/
theorem C124_pipeline_inconsistent :
    (heapChainFit (sstI id).fitTransform [0, 0] false (.mat 2 [[1, 3]]) [centerEx]).2.2 = .ok (.mat 2 [[-1, 1]]) ∧
      (chain (sstI id).transform (heapRead
        (heapChainFit (sstI id).fitTransform [0, 0] false (.mat 2 [[1, 3]]) [centerEx]).1 [0, 0]) false
          (.mat 2 [[1, 3]])).2 = .ok (.mat 2 [[1, 3]]) := by
  refine ⟨?_, ?_⟩ <;> decide +kernel

/-! ### Non-vacuity -/

/-- Bases that only remember what they have been trained with. -/
def memoI : BasI ℚ (Option String × Option Nat × Option (Snap ℚ)) where
  n b := b.2.1
  setN b n := (b.1, some n, b.2.2)
  r _ := some 1
  name b := b.1
  setName b nm := (nm, b.2)
  fit b Y := ((none, b.2.1, some Y), .ok ())
  compress _ Y := .ok Y
  decompress _ Y _ := .ok Y

example : Reads [(none, none, none), (none, none, none)] [1, 0]
    ([(none, none, none), (none, none, none)] : List (Option String × Option Nat × Option (Snap ℚ))) := by
  simp [Reads]

example : runCalls memoI [.make [1, 0] none, .fit [1, 0] (.vec [1, 2, 3, 4])] [(none, none, none), (none, none, none)] =
    [(none, some 2, some (.vec [3, 4])), (none, some 2, some (.vec [1, 2]))] := by decide +kernel

example : runCalls memoI [.make [0, 0] none, .fit [0, 0] (.vec [1, 2, 3, 4])] [(none, none, none)] =
    [(none, some 2, some (.vec [3, 4]))] := by decide +kernel

example : heapItem memoI [1, 0] (heapMake memoI [1, 0] none [(none, none, none), (some "T", none, none)]).1 "variable 1" =
    .ok 0 := by decide +kernel

end Opinf
