import Verif.Model.Accessors
import Verif.Props.Predict
import Verif.Props.Construct
import Verif.Lemmas.InterpModel
import Mathlib.Data.List.Perm.Basic

/-!
# C106: the operator accessors, and the order of the operators

Specification: `Model.Term`, the contribution of one operator, and `FirstOf`.
-/

namespace Opinf

open List

variable {K S : Type}

/-! ### Lookup -/

/-- `o` is the first element of the list with the property, or there is none. -/
def FirstOf {α : Type} (P : α → Prop) (l : List α) : Option α → Prop
  | none => ∀ x ∈ l, ¬ P x
  | some o => ∃ before after, l = before ++ o :: after ∧ P o ∧ ∀ x ∈ before, ¬ P x

theorem find?_firstOf {α : Type} (P : α → Prop) [DecidablePred P] (l : List α) :
    FirstOf P l (l.find? fun x => decide (P x)) := by
  induction l with
  | nil => intro x hx; cases hx
  | cons x l ih =>
    by_cases hx : P x
    · rw [find?_cons_of_pos (by simpa using hx)]
      exact ⟨[], l, rfl, hx, fun y hy => by cases hy⟩
    · rw [find?_cons_of_neg (by simpa using hx)]
      cases h : l.find? fun x => decide (P x) with
      | none =>
        rw [h] at ih
        intro y hy
        rcases mem_cons.1 hy with rfl | hy
        · exact hx
        · exact ih y hy
      | some o =>
        rw [h] at ih
        obtain ⟨b, a, h1, h2, h3⟩ := ih
        refine ⟨x :: b, a, by rw [h1]; rfl, h2, ?_⟩
        intro y hy
        rcases mem_cons.1 hy with rfl | hy
        · exact hx
        · exact h3 y hy

/-- C106: an accessor returns the first operator of its class, and `None` if and only if the model has none. -/
theorem C106_first (M : Model K S) (a : Accessor) : FirstOf (fun o => o.kind = a.kind) M.ops (M.get a) :=
  find?_firstOf _ _

/-- C106, for parametric models. -/
theorem C106_first_parametric (M : PModel K S) (a : Accessor) :
    FirstOf (fun o => o.kind = a.kind) M.ops (M.get a) :=
  find?_firstOf _ _

/-! ### The contribution of an operator -/

/-- A value broadcast to a vector of length `n`. -/
def termVec (n : Nat) : Arg K → Except Err (List K)
  | .scalar y => .ok (replicate n y)
  | .vec [y] => .ok (replicate n y)
  | .vec ys => if ys.length = n then .ok ys else .error .value
  | .mat .. => .error .value

/-- What the operator contributes to the right-hand side at the state `q` with the input `u`. -/
def Op.term [CommSemiring K] (o : Op K) (q : List K) (u : Option (List K)) : Except Err (List K) :=
  o.apply (.vec q) (u.map .vec) >>= termVec q.length

theorem vadd_replicate [Add K] (out : List K) (y : K) : vadd out (replicate out.length y) = out.map (· + y) := by
  induction out with
  | nil => rfl
  | cons x out ih =>
    simp only [vadd, length_cons, replicate_succ, zipWith_cons_cons, map_cons] at ih ⊢
    rw [ih]

theorem addInto_term [Add K] (out : List K) (a : Arg K) : addInto out a = (termVec out.length a).map (vadd out) := by
  cases a with
  | scalar y => simp [addInto, termVec, Except.map, vadd_replicate]
  | mat n cols => rfl
  | vec ys =>
    match ys with
    | [] =>
      simp only [addInto, termVec]
      split <;> rfl
    | [y] => simp [addInto, termVec, Except.map, vadd_replicate]
    | y :: z :: ys =>
      simp only [addInto, termVec]
      split <;> rfl

theorem vadd_right_comm [AddCommSemigroup K] (a b c : List K) : vadd (vadd a b) c = vadd (vadd a c) b := by
  induction a generalizing b c with
  | nil => cases b <;> cases c <;> rfl
  | cons x a ih =>
    cases b with
    | nil => cases c <;> rfl
    | cons y b =>
      cases c with
      | nil => rfl
      | cons z c =>
        have := ih b c
        simp only [vadd] at this
        simp only [vadd, zipWith_cons_cons, this, add_right_comm]

theorem termVec_length {n : Nat} {a : Arg K} {t : List K} (h : termVec n a = .ok t) : t.length = n := by
  unfold termVec at h
  split at h
  · cases h; simp
  · cases h; simp
  · split at h
    · rename_i hl; cases h; exact hl
    · cases h
  · cases h

theorem term_length [CommSemiring K] {o : Op K} {q : List K} {u : Option (List K)} {t : List K}
    (h : o.term q u = .ok t) : t.length = q.length := by
  rw [Op.term] at h
  cases ha : o.apply (.vec q) (u.map .vec) with
  | error e => rw [ha] at h; cases h
  | ok a =>
    rw [ha] at h
    exact termVec_length h

/-- The right-hand side is the sum of the contributions. -/
theorem rhs_terms [CommSemiring K] (M : Model K S) (q : List K) (u : Option (List K)) (y : List K) :
    M.rhs q u = .ok y ↔ ∃ ts, Forall₂ (fun o t => Op.term o q u = .ok t) M.ops ts ∧
      y = ts.foldl vadd (replicate q.length 0) := by
  have key : ∀ (ops : List (Op K)) (acc : List K), acc.length = q.length →
      ((ops.foldlM (fun out op => do addInto out (← op.apply (.vec q) (u.map .vec))) acc : Except Err (List K)) = .ok y ↔
        ∃ ts, Forall₂ (fun o t => Op.term o q u = .ok t) ops ts ∧ y = ts.foldl vadd acc) := by
    intro ops
    induction ops with
    | nil =>
      intro acc _
      constructor
      · intro h
        exact ⟨[], .nil, (Except.ok.inj h).symm⟩
      · rintro ⟨ts, h, rfl⟩
        cases h
        rfl
    | cons o ops ih =>
      intro acc hl
      have hstep : (do addInto acc (← o.apply (.vec q) (u.map .vec)) : Except Err (List K)) =
          (o.term q u).map (vadd acc) := by
        rw [Op.term]
        cases o.apply (.vec q) (u.map .vec) with
        | error e => rfl
        | ok a =>
          show addInto acc a = (termVec q.length a).map (vadd acc)
          rw [addInto_term, hl]
      rw [foldlM_cons, hstep]
      cases ht : o.term q u with
      | error e =>
        constructor
        · intro h; cases h
        · rintro ⟨ts, h, -⟩
          cases h with
          | cons h1 _ => rw [ht] at h1; cases h1
      | ok t =>
        have hl' : (vadd acc t).length = q.length := by
          have := term_length ht
          simp [vadd, hl, this]
        show (ops.foldlM _ (vadd acc t) : Except Err (List K)) = .ok y ↔ _
        rw [ih (vadd acc t) hl']
        constructor
        · rintro ⟨ts, h1, h2⟩
          exact ⟨t :: ts, .cons ht h1, h2⟩
        · rintro ⟨ts, h1, h2⟩
          cases h1 with
          | cons h3 h4 =>
            rw [ht] at h3
            cases h3
            exact ⟨_, h4, h2⟩
  exact key M.ops _ (by simp)

theorem sumTerms_perm [AddCommSemigroup K] {ts ts' : List (List K)} (h : ts.Perm ts') (acc : List K) :
    ts.foldl vadd acc = ts'.foldl vadd acc := by
  haveI : RightCommutative (vadd : List K → List K → List K) := ⟨vadd_right_comm⟩
  exact h.foldl_eq acc

/-! ### The order of the operators -/

/-- C106: the order of the operators does not matter for the right-hand side. -/
theorem C106_order_rhs [CommSemiring K] (M N : Model K S) (h : M.ops.Perm N.ops) (q : List K) (u : Option (List K))
    (y : List K) : M.rhs q u = .ok y ↔ N.rhs q u = .ok y := by
  have key : ∀ M N : Model K S, M.ops.Perm N.ops → M.rhs q u = .ok y → N.rhs q u = .ok y := by
    intro M N h hM
    obtain ⟨ts, h1, h2⟩ := (rhs_terms M q u y).1 hM
    obtain ⟨ts', h3, h4⟩ := perm_comp_forall₂ h.symm h1
    exact (rhs_terms N q u y).2 ⟨ts', h3, by rw [h2]; exact (sumTerms_perm h4 _).symm⟩
  exact ⟨key M N h, key N M h.symm⟩

theorem checkTrained_perm {M N : Model K S} (h : M.ops.Perm N.ops) (hi : M.hasInputs = N.hasInputs)
    (hr : M.r = N.r) (hm : M.m = N.m) : M.checkTrained = N.checkTrained := by
  have : M.ops.any (·.entries.isNone) = N.ops.any (·.entries.isNone) := by
    rw [Bool.eq_iff_iff, any_eq_true, any_eq_true]
    exact exists_congr fun o => and_congr_left fun _ => h.mem_iff
  rw [Model.checkTrained, Model.checkTrained, this, hi, hr, hm]

/-- C106: the order of the operators does not matter for discrete predictions. -/
theorem C106_order_predict [CommSemiring K] (M N : Model K S) (h : M.ops.Perm N.ops) (hi : M.hasInputs = N.hasInputs)
    (hr : M.r = N.r) (hm : M.m = N.m) (q0 : List K) (n : Int) (inputs : PredInput K) (L : List (List K)) :
    M.predict q0 n inputs = .ok L ↔ N.predict q0 n inputs = .ok L := by
  rw [C15_predict_iff, C15_predict_iff, checkTrained_perm h hi hr hm, hi, hr, hm]
  simp only [C106_order_rhs M N h]

/-! ### The model equation -/

/-- The contribution of an accessor: zero if it returns `None`. -/
def Model.termOf [CommSemiring K] (M : Model K S) (q : List K) (u : Option (List K)) (a : Accessor) :
    Except Err (List K) :=
  match M.get a with
  | none => .ok (replicate q.length 0)
  | some o => o.term q u

/-- Every operator has an accessor, and no two operators have the same one. -/
structure Model.Plain (M : Model K S) : Prop where
  nodup : (M.ops.map Op.kind).Nodup
  known : ∀ o ∈ M.ops, ∃ a : Accessor, o.kind = a.kind

def allAccessors : List Accessor := [.c, .A, .H, .G, .B, .N]

theorem get_mem {M : Model K S} {a : Accessor} {o : Op K} (h : M.get a = some o) : o ∈ M.ops ∧ o.kind = a.kind := by
  have := C106_first M a
  rw [h] at this
  obtain ⟨b, c, h1, h2, -⟩ := this
  exact ⟨by rw [h1]; simp, h2⟩

theorem kind_injective {a b : Accessor} (h : a.kind = b.kind) : a = b := by
  cases a <;> cases b <;> first | rfl | cases h

theorem get_of_mem {M : Model K S} (hM : M.Plain) {o : Op K} (ho : o ∈ M.ops) {a : Accessor} (ha : o.kind = a.kind) :
    M.get a = some o := by
  cases h : M.get a with
  | none =>
    have := C106_first M a
    rw [h] at this
    exact absurd ha (this o ho)
  | some o' =>
    obtain ⟨h1, h2⟩ := get_mem h
    exact congrArg some (inj_on_of_nodup_map hM.nodup h1 ho (h2.trans ha.symm))

/-- The operators of such a model are, up to their order, the ones the accessors return. -/
theorem ops_perm_accessors {M : Model K S} (hM : M.Plain) : M.ops.Perm (allAccessors.filterMap M.get) := by
  refine (perm_ext_iff_of_nodup (Nodup.of_map _ hM.nodup) ?_).2 ?_
  · refine Nodup.filterMap ?_ (by decide)
    intro a b o ha hb
    have h1 := (get_mem (Option.mem_def.1 ha)).2
    have h2 := (get_mem (Option.mem_def.1 hb)).2
    exact kind_injective (h1.symm.trans h2)
  · intro o
    rw [mem_filterMap]
    constructor
    · intro ho
      obtain ⟨a, ha⟩ := hM.known o ho
      exact ⟨a, by cases a <;> simp [allAccessors], get_of_mem hM ho ha⟩
    · rintro ⟨a, -, ha⟩
      exact (get_mem ha).1

theorem sum_optional [CommSemiring K] (M : Model K S) (q : List K) (u : Option (List K)) (as : List Accessor)
    (acc : List K) (hacc : acc.length = q.length) (y : List K) :
    (∃ ts, Forall₂ (fun o t => Op.term o q u = .ok t) (as.filterMap M.get) ts ∧ y = ts.foldl vadd acc) ↔
    ∃ ts, Forall₂ (fun a t => M.termOf q u a = .ok t) as ts ∧ y = ts.foldl vadd acc := by
  induction as generalizing acc with
  | nil => simp
  | cons a as ih =>
    cases ha : M.get a with
    | none =>
      rw [filterMap_cons_none ha, ih acc hacc]
      have hz : vadd acc (replicate q.length 0) = acc := by
        rw [← hacc, vadd_replicate]
        simp
      constructor
      · rintro ⟨ts, h1, h2⟩
        exact ⟨replicate q.length 0 :: ts, .cons (by simp [Model.termOf, ha]) h1, by rw [foldl_cons, hz]; exact h2⟩
      · rintro ⟨ts, h1, h2⟩
        cases h1 with
        | cons h3 h4 =>
          simp only [Model.termOf, ha, Except.ok.injEq] at h3
          subst h3
          rw [foldl_cons, hz] at h2
          exact ⟨_, h4, h2⟩
    | some o =>
      rw [filterMap_cons_some ha]
      constructor
      · rintro ⟨ts, h1, h2⟩
        cases h1 with
        | @cons _ t _ ts h3 h4 =>
          have hl : (vadd acc t).length = q.length := by simp [vadd, hacc, term_length h3]
          obtain ⟨ts', h5, h6⟩ := (ih (vadd acc t) hl).1 ⟨ts, h4, h2⟩
          exact ⟨t :: ts', .cons (by simpa [Model.termOf, ha] using h3) h5, h6⟩
      · rintro ⟨ts, h1, h2⟩
        cases h1 with
        | @cons _ t _ ts h3 h4 =>
          have h3 : o.term q u = .ok t := by simpa [Model.termOf, ha] using h3
          have hl : (vadd acc t).length = q.length := by simp [vadd, hacc, term_length h3]
          obtain ⟨ts', h5, h6⟩ := (ih (vadd acc t) hl).2 ⟨ts, h4, h2⟩
          exact ⟨t :: ts', .cons h3 h5, h6⟩

/-- C106, the model equation: if no two operators have the same class and all classes have an accessor, then the
right-hand side is the sum of the six contributions of `c_`, `A_`, `H_`, `G_`, `B_` and `N_`. -/
theorem C106_equation [CommSemiring K] (M : Model K S) (hM : M.Plain) (q : List K) (u : Option (List K))
    (y : List K) :
    M.rhs q u = .ok y ↔ ∃ c A H G B N, M.termOf q u .c = .ok c ∧ M.termOf q u .A = .ok A ∧ M.termOf q u .H = .ok H ∧
      M.termOf q u .G = .ok G ∧ M.termOf q u .B = .ok B ∧ M.termOf q u .N = .ok N ∧
      y = vadd (vadd (vadd (vadd (vadd c A) H) G) B) N := by
  have h1 : M.rhs q u = .ok y ↔ ∃ ts, Forall₂ (fun o t => Op.term o q u = .ok t) (allAccessors.filterMap M.get) ts ∧
      y = ts.foldl vadd (replicate q.length 0) := by
    rw [rhs_terms]
    have key : ∀ l l' : List (Op K), l.Perm l' → (∃ ts, Forall₂ (fun o t => Op.term o q u = .ok t) l ts ∧
        y = ts.foldl vadd (replicate q.length 0)) → ∃ ts, Forall₂ (fun o t => Op.term o q u = .ok t) l' ts ∧
        y = ts.foldl vadd (replicate q.length 0) := by
      rintro l l' h ⟨ts, h1, h2⟩
      obtain ⟨ts', h3, h4⟩ := perm_comp_forall₂ h.symm h1
      exact ⟨ts', h3, by rw [h2]; exact (sumTerms_perm h4 _).symm⟩
    exact ⟨key _ _ (ops_perm_accessors hM), key _ _ (ops_perm_accessors hM).symm⟩
  rw [h1, sum_optional M q u allAccessors _ (by simp)]
  have hz : ∀ t, M.termOf q u .c = .ok t → vadd (replicate q.length 0) t = t := by
    intro t ht
    have hl : t.length = q.length := by
      unfold Model.termOf at ht
      split at ht
      · cases ht; simp
      · exact term_length ht
    rw [← hl]
    clear hl ht
    induction t with
    | nil => rfl
    | cons x t ih =>
      simp only [vadd, length_cons, replicate_succ, zipWith_cons_cons, zero_add] at ih ⊢
      rw [ih]
  constructor
  · rintro ⟨ts, h2, h3⟩
    simp only [allAccessors] at h2
    rcases h2 with _ | ⟨hc, h2⟩
    rcases h2 with _ | ⟨hA, h2⟩
    rcases h2 with _ | ⟨hH, h2⟩
    rcases h2 with _ | ⟨hG, h2⟩
    rcases h2 with _ | ⟨hB, h2⟩
    rcases h2 with _ | ⟨hN, h2⟩
    cases h2
    simp only [foldl_cons, foldl_nil, hz _ hc] at h3
    exact ⟨_, _, _, _, _, _, hc, hA, hH, hG, hB, hN, h3⟩
  · rintro ⟨c, A, H, G, B, N, hc, hA, hH, hG, hB, hN, h3⟩
    refine ⟨[c, A, H, G, B, N], .cons hc (.cons hA (.cons hH (.cons hG (.cons hB (.cons hN .nil))))), ?_⟩
    simp only [foldl_cons, foldl_nil, hz _ hc]
    exact h3

/-! ### Models given by abbreviations -/

/-- The abbreviation of the class of an accessor. -/
def Accessor.letter : Accessor → String
  | .c => "c"
  | .A => "A"
  | .H => "H"
  | .G => "G"
  | .B => "B"
  | .N => "N"

theorem abbreviation_iff (s : String) (k : OpKind) :
    abbreviation s = some k ↔ ∃ a : Accessor, s = a.letter ∧ k = a.kind := by
  constructor
  · intro h
    unfold abbreviation at h
    split at h
    · exact ⟨.c, rfl, (Option.some.inj h).symm⟩
    · exact ⟨.A, rfl, (Option.some.inj h).symm⟩
    · exact ⟨.H, rfl, (Option.some.inj h).symm⟩
    · exact ⟨.G, rfl, (Option.some.inj h).symm⟩
    · exact ⟨.B, rfl, (Option.some.inj h).symm⟩
    · exact ⟨.N, rfl, (Option.some.inj h).symm⟩
    · cases h
  · rintro ⟨a, rfl, rfl⟩
    cases a <;> rfl

/-- C106: a model constructed from abbreviations, such as `"cAHB"`, has one operator for each letter, and the accessors
tell which letters were given. -/
theorem C106_letters (plain : S) (l2 : Int → S) (ls : List String) (x : SolverArg S) (M : Model K S)
    (h : Model.construct plain l2 (ls.map OpArg.str) x = .ok M) :
    M.Plain ∧ ∀ a : Accessor, (a.letter ∈ ls ↔ M.get a = some ⟨a.kind, none⟩) ∧ (a.letter ∉ ls ↔ M.get a = none) := by
  obtain ⟨h1, -⟩ := C57_construct_reports plain l2 _ x M h
  obtain ⟨ops, h2, h3, -⟩ := (C57_construct_iff plain l2 _ x).1 ⟨M, h⟩
  rw [h1] at h2
  cases h2
  have h4 := mapM_ok_forall2.1 h1
  rw [forall₂_map_left_iff] at h4
  have h5 : Forall₂ (fun l o => ∃ a : Accessor, l = a.letter ∧ o = (⟨a.kind, none⟩ : Op K)) ls M.ops := by
    refine h4.imp ?_
    intro l o hlo
    simp only [OpArg.resolve] at hlo
    cases hab : abbreviation l with
    | none => rw [hab] at hlo; cases hlo
    | some k =>
      rw [hab] at hlo
      obtain ⟨a, e1, e2⟩ := (abbreviation_iff l k).1 hab
      exact ⟨a, e1, by rw [← e2]; exact (Except.ok.inj hlo).symm⟩
  have hall : ∀ o ∈ M.ops, ∃ a : Accessor, a.letter ∈ ls ∧ o = (⟨a.kind, none⟩ : Op K) := by
    intro o ho
    obtain ⟨l, hl, a, e1, e2⟩ := forall₂_mem_right h5 ho
    exact ⟨a, e1 ▸ hl, e2⟩
  have hP : M.Plain := by
    constructor
    · have := h3.types
      rwa [filter_eq_self.2] at this
      intro o ho
      obtain ⟨a, -, rfl⟩ := hall o ho
      rfl
    · intro o ho
      obtain ⟨a, -, rfl⟩ := hall o ho
      exact ⟨a, rfl⟩
  refine ⟨hP, ?_⟩
  have key : ∀ a : Accessor, a.letter ∈ ls → M.get a = some ⟨a.kind, none⟩ := by
    intro a ha
    obtain ⟨o, ho, b, e1, e2⟩ := forall₂_mem_right h5.flip ha
    have : a = b := by
      cases a <;> cases b <;> first | rfl | (exact absurd e1 (by decide))
    subst this
    subst e2
    exact get_of_mem hP ho rfl
  have key' : ∀ a : Accessor, a.letter ∉ ls → M.get a = none := by
    intro a ha
    cases hg : M.get a with
    | none => rfl
    | some o =>
      obtain ⟨h6, h7⟩ := get_mem hg
      obtain ⟨b, h8, rfl⟩ := hall o h6
      have := kind_injective h7
      subst this
      exact absurd h8 ha
  intro a
  refine ⟨⟨key a, ?_⟩, ⟨key' a, ?_⟩⟩
  · intro hg
    by_contra hn
    rw [key' a hn] at hg
    cases hg
  · intro hg hn
    rw [key a hn] at hg
    cases hg

theorem plain_of_kinds {M N : Model K S} (hM : M.Plain) (h : N.ops.map Op.kind = M.ops.map Op.kind) : N.Plain := by
  constructor
  · rw [h]; exact hM.nodup
  · intro o ho
    have : o.kind ∈ M.ops.map Op.kind := by rw [← h]; exact mem_map_of_mem ho
    obtain ⟨o', h1, h2⟩ := mem_map.1 this
    rw [← h2]
    exact hM.known o' h1

/-- C106: after training, the accessors return the same kinds of operators as before, now with entries, and the model
equation holds. -/
theorem C106_trained [Field K] (I : SolverI K S) (M : Model K S) (hP : M.Plain) (hM : M.Inv)
    (hint : M.intrusive = false) (states lhs : Arg K) (inputs : Option (Arg K)) (hs : states.WF)
    (hl : lhs.WF) (hin : ∀ a ∈ inputs, a.WF) (hr : 0 < (atleast2d states).1)
    (hI : I.Shaped (atleast2d states).1) (M' : Model K S)
    (hfit : M.fit I states lhs inputs = (M', .ok ())) :
    M'.Plain ∧ ∀ a : Accessor, (M'.get a).map Op.kind = (M.get a).map Op.kind ∧
      ∀ o, M'.get a = some o → ∃ E, o.entries = some E := by
  obtain ⟨m, hm⟩ : ∃ m : Nat, M.hasInputs = true → ∀ a ∈ inputs, (atleast2d a).1 = m := by
    cases inputs with
    | none => exact ⟨0, fun _ a ha => by cases ha⟩
    | some a => exact ⟨(atleast2d a).1, fun _ b hb => by cases hb; rfl⟩
  obtain ⟨h1, h2⟩ := fit_cal I M hM hint states lhs inputs hs hl hin hr hI M' hfit m hm
  refine ⟨plain_of_kinds hP h1, fun a => ⟨?_, ?_⟩⟩
  · have key : ∀ l l' : List (Op K), l.map Op.kind = l'.map Op.kind →
        (l.find? fun o => decide (o.kind = a.kind)).map Op.kind =
        (l'.find? fun o => decide (o.kind = a.kind)).map Op.kind := by
      intro l
      induction l with
      | nil => intro l' h; rw [map_nil, eq_comm, map_eq_nil_iff] at h; rw [h]
      | cons x l ih =>
        intro l' h
        cases l' with
        | nil => cases h
        | cons y l' =>
          rw [map_cons, map_cons] at h
          obtain ⟨h3, h4⟩ := cons.inj h
          by_cases hx : x.kind = a.kind
          · rw [find?_cons_of_pos (by simpa using hx), find?_cons_of_pos (by simpa using h3 ▸ hx)]
            simp [h3]
          · rw [find?_cons_of_neg (by simpa using hx), find?_cons_of_neg (by simpa using h3 ▸ hx)]
            exact ih l' h4
    exact key _ _ h1
  · intro o ho
    obtain ⟨E, hE, -⟩ := h2 o (get_mem ho).1
    exact ⟨E, hE⟩

/-! ### Where the accessors do not tell everything -/

/-- A model with a known and an unknown linear operator; `x` is what is learned. -/
def shadowModel (x : Option (Mat ℚ)) : Model ℚ Unit :=
  ⟨[⟨⟨.lin, some ⟨2, 2, [[1, 0], [0, 1]]⟩⟩, false⟩, ⟨⟨.lin, x⟩, true⟩], false, some 2, some 0, false, some ()⟩

/-- C106, where it ends: a model may have a known and an inferred operator of the same class. The accessor then
returns the first one only, so that the inferred entries are not found and the model equation does not hold for the
accessors. -/
theorem C106_shadowed :
    Model.construct () (fun _ => ()) [.op ⟨.lin, some ⟨2, 2, [[1, 0], [0, 1]]⟩⟩, .str "A"] .none = .ok (shadowModel none) ∧
    (shadowModel (some ⟨2, 2, [[3, 4], [5, 6]]⟩)).get .A = some ⟨.lin, some ⟨2, 2, [[1, 0], [0, 1]]⟩⟩ ∧
    (shadowModel (some ⟨2, 2, [[3, 4], [5, 6]]⟩)).rhs [1, 0] none = .ok [4, 5] ∧
    (shadowModel (some ⟨2, 2, [[3, 4], [5, 6]]⟩)).termOf [1, 0] none .A = .ok [1, 0] := by
  refine ⟨rfl, rfl, ?_, ?_⟩ <;> decide +kernel

/-! ### Examples -/

/-- A trained model `c + A q + H (q ⊗ q)`, with the operators in an unusual order. -/
def accEx : Model ℚ Unit :=
  ⟨[⟨⟨.kron .quad, some ⟨2, 3, [[1, 0, 0], [0, 1, 0]]⟩⟩, true⟩, ⟨⟨.const, some ⟨2, 1, [[7], [8]]⟩⟩, true⟩,
    ⟨⟨.lin, some ⟨2, 2, [[0, 1], [1, 0]]⟩⟩, false⟩], false, some 2, some 0, false, some ()⟩

theorem accEx_plain : accEx.Plain := by
  refine ⟨by decide, ?_⟩
  intro o ho
  simp only [accEx, Model.ops, map_cons, map_nil, mem_cons, not_mem_nil, or_false] at ho
  rcases ho with rfl | rfl | rfl
  · exact ⟨.H, rfl⟩
  · exact ⟨.c, rfl⟩
  · exact ⟨.A, rfl⟩

example : accEx.rhs [2, 3] none = .ok [7 + 3 + 4, 8 + 2 + 6] ∧ accEx.termOf [2, 3] none .c = .ok [7, 8] ∧
    accEx.termOf [2, 3] none .A = .ok [3, 2] ∧ accEx.termOf [2, 3] none .H = .ok [4, 6] ∧
    accEx.termOf [2, 3] none .B = .ok [0, 0] := by decide +kernel

example : ∃ M, Model.construct (K := ℚ) () (fun _ => ()) (["c", "A", "H"].map OpArg.str) .none = .ok M ∧
    M.get .H = some ⟨.kron .quad, none⟩ ∧ M.get .B = none := ⟨_, rfl, rfl, rfl⟩

/-- The hypotheses of `C106_trained` hold for the model of the examples in `Props/Fit`. -/
example : exModel.Plain ∧ exModel.Inv ∧ exSolver.Shaped (atleast2d exStates).1 ∧
    (exModel.fit exSolver exStates exLhs (some exInputs)).2 = .ok () ∧
    ((exModel.fit exSolver exStates exLhs (some exInputs)).1.get .A).isSome = true := by
  refine ⟨⟨by decide, ?_⟩, exModel_inv, exSolver_shaped _, by decide +kernel, by decide +kernel⟩
  intro o ho
  simp only [exModel, Model.ops, map_cons, map_nil, mem_cons, not_mem_nil, or_false] at ho
  rcases ho with rfl | rfl | rfl
  · exact ⟨.A, rfl⟩
  · exact ⟨.c, rfl⟩
  · exact ⟨.B, rfl⟩

/-- The order: the operators of `accEx` the other way round. -/
example : (⟨accEx.slots.reverse, false, some 2, some 0, false, some ()⟩ : Model ℚ Unit).rhs [2, 3] none = .ok [14, 16] :=
  (C106_order_rhs accEx _ (by simp [Model.ops, accEx, map_reverse]; exact (reverse_perm _).symm) [2, 3] none [14, 16]).1
    (by decide +kernel)

end Opinf
