import Verif.Lemmas.EnoughSamples
import Verif.Props.Recover
import Verif.Props.ParamOrder
import Verif.Props.ModelEq

/-!
# C113: the right-hand side determines the operators
-/

namespace Opinf

open List

variable {K : Type}

/-! ### Specification -/

/-- All entries of the operator are zero. -/
def Op.IsZero [Zero K] (o : Op K) : Prop := ∀ row ∈ o.rowsOf, ∀ x ∈ row, x = 0

/-- The right-hand sides of two models agree at all states of dimension `r` and inputs of dimension `m`. -/
def SameRhs {S S' : Type} [CommSemiring K] (M : Model K S) (N : Model K S') (r m : Nat) : Prop :=
  ∀ q u : List K, q.length = r → u.length = m → M.rhs q (some u) = N.rhs q (some u)

/-- The right-hand sides of two models agree at all states of dimension `r`, evaluated without an input. -/
def SameRhsAutonomous {S S' : Type} [CommSemiring K] (M : Model K S) (N : Model K S') (r : Nat) : Prop :=
  ∀ q : List K, q.length = r → M.rhs q none = N.rhs q none

/-- The operator classes of a model. -/
def Model.kinds {S : Type} (M : Model K S) : List OpKind := M.ops.map Op.kind

/-! ### Operators of the same classes -/

theorem some_ok (o : OpKind) {m : Nat} {u : List K} (hu : u.length = m) : InputOK o m (some u) := fun _ => ⟨u, rfl, hu⟩

theorem dataVector_ignores [CommSemiring K] (kinds : List OpKind) (h : ∀ o ∈ kinds, o.hasInputs = false) (q u v : List K) :
    dataVector kinds q u = dataVector kinds q v := by
  have : ∀ o ∈ kinds, o.dataCol q u = o.dataCol q v := fun o ho => by
    have := h o ho
    cases o <;> simp_all [OpKind.dataCol, OpKind.hasInputs]
  exact List.flatMap_congr this

/-- Operators of the same distinct classes whose sums agree everywhere are the same. -/
theorem sums_determine [Field K] [Infinite K] {r m : Nat} {L L' : List (Op K)} (h : ∀ o ∈ L, o.Cal r m)
    (h' : ∀ o ∈ L', o.Cal r m) (hk : L.map Op.kind = L'.map Op.kind) (hn : (L.map Op.kind).Nodup)
    (he : ∀ q u : List K, q.length = r → u.length = m → rhsVal L r q (some u) = rhsVal L' r q (some u)) : L = L' := by
  refine stackRows_inj h h' hk fun i hi => ?_
  have l1 := stackRow_length L h hi
  have l2 := stackRow_length L' h' hi
  have hd : (L.map fun o => o.kind.dim r m).sum = ((L.map Op.kind).map fun o => o.dim r m).sum := by
    rw [map_map]; rfl
  have hd' : (L'.map fun o => o.kind.dim r m).sum = ((L.map Op.kind).map fun o => o.dim r m).sum := by
    rw [hk, map_map]; rfl
  refine vsub_zero_mem (by rw [l1, l2, hd, hd']) ?_
  refine dataVector_free _ hn r m _ (by rw [length_vsub, l1, l2, hd, hd', min_self]) fun q u hq hu => ?_
  have e := he q u hq hu
  rw [rhsVal_stack h q _ hq fun o _ => some_ok _ hu, rhsVal_stack h' q _ hq fun o _ => some_ok _ hu, ← hk] at e
  have e := congrArg (fun l => l.getD i 0) e
  simp only [matVec, stackRows, map_map, Option.getD_some] at e
  rw [Opinf.getD_eq_getElem _ 0 (by simpa using hi), Opinf.getD_eq_getElem _ 0 (by simpa using hi)] at e
  simp only [getElem_map, getElem_range, Function.comp_apply] at e
  rw [dot_vsub_left _ _ _ (by rw [l1, l2, hd, hd']), e, sub_self]

/-- A list of operators can be put in the order of given classes. -/
theorem reorder_kinds (L : List (Op K)) (ks : List OpKind) (h : ks.Perm (L.map Op.kind)) :
    ∃ L' : List (Op K), L'.Perm L ∧ L'.map Op.kind = ks := by
  induction ks generalizing L with
  | nil =>
    have := h.symm.eq_nil
    rw [map_eq_nil_iff] at this
    exact ⟨[], by rw [this], rfl⟩
  | cons k ks ih =>
    obtain ⟨o, ho, rfl⟩ := mem_map.1 (h.subset mem_cons_self)
    obtain ⟨A, B, rfl⟩ := append_of_mem ho
    have h2 : ks.Perm ((A ++ B).map Op.kind) := by
      rw [map_append, map_cons] at h
      rw [map_append]
      exact (h.trans perm_middle).cons_inv
    obtain ⟨L', hp, hk⟩ := ih _ h2
    exact ⟨o :: L', (hp.cons o).trans perm_middle.symm, by rw [map_cons, hk]⟩

theorem sums_determine_perm [Field K] [Infinite K] {r m : Nat} {L L' : List (Op K)} (h : ∀ o ∈ L, o.Cal r m)
    (h' : ∀ o ∈ L', o.Cal r m) (hk : (L.map Op.kind).Perm (L'.map Op.kind)) (hn : (L.map Op.kind).Nodup)
    (he : ∀ q u : List K, q.length = r → u.length = m → rhsVal L r q (some u) = rhsVal L' r q (some u)) : L.Perm L' := by
  obtain ⟨L₂, hp, hk2⟩ := reorder_kinds L' _ hk
  have : L = L₂ := sums_determine h (fun o ho => h' o (hp.subset ho)) hk2.symm hn fun q u hq hu => by
    rw [he q u hq hu]
    exact (sumTerms_perm (hp.map _) _).symm
  rw [this]
  exact hp

/-! ### Operators of different classes -/

/-- The operator of a class with all entries zero. -/
def zeroOp [Zero K] (r m : Nat) (k : OpKind) : Op K :=
  ⟨k, some ⟨r, k.dim r m, replicate r (replicate (k.dim r m) 0)⟩⟩

theorem zeroOp_cal [Zero K] (r m : Nat) (k : OpKind) : (zeroOp r m k : Op K).Cal r m :=
  ⟨_, rfl, ⟨by simp, fun row hrow => by rw [eq_of_mem_replicate hrow]; simp⟩, rfl, rfl⟩

theorem zeroOp_zero [Zero K] (r m : Nat) (k : OpKind) : (zeroOp r m k : Op K).IsZero := by
  intro row hrow x hx
  rw [eq_of_mem_replicate (show row ∈ replicate r (replicate (k.dim r m) (0 : K)) from hrow)] at hx
  exact eq_of_mem_replicate hx

theorem zeroOp_val [CommSemiring K] (r m : Nat) (k : OpKind) (q : List K) (u : Option (List K)) :
    (zeroOp r m k : Op K).val q u = replicate r 0 := by
  simp only [Op.val, zeroOp, matVec, map_replicate]
  congr 1
  generalize k.dataCol q (u.getD []) = x
  generalize k.dim r m = d
  induction d generalizing x with
  | zero => simp [dot]
  | succ d ih =>
    cases x with
    | nil => simp [dot]
    | cons a x => 
      have := ih x
      simp only [dot, replicate_succ, zipWith_cons_cons, sum_cons, zero_mul, zero_add] at this ⊢
      exact this

theorem rhsVal_zeros [Field K] (L : List (Op K)) (ks : List OpKind) (r m : Nat) (h : ∀ o ∈ L, o.Cal r m)
    (q : List K) (u : Option (List K)) : rhsVal (L ++ ks.map (zeroOp r m)) r q u = rhsVal L r q u := by
  have hl := length_rhsVal L r m h q u
  rw [rhsVal, map_append, foldl_append]
  change ((ks.map (zeroOp r m)).map fun o => o.val q u).foldl vadd (rhsVal L r q u) = _
  generalize rhsVal L r q u = acc at hl
  induction ks with
  | nil => rfl
  | cons k ks ih =>
    rw [map_cons, map_cons, foldl_cons, zeroOp_val, vadd_zeros_right _ _ hl]
    exact ih

/-- The core of the statements below. -/
theorem classes_determine [Field K] [Infinite K] {r m : Nat} {L L' : List (Op K)} (h : ∀ o ∈ L, o.Cal r m)
    (h' : ∀ o ∈ L', o.Cal r m) (hn : (L.map Op.kind).Nodup) (hn' : (L'.map Op.kind).Nodup)
    (he : ∀ q u : List K, q.length = r → u.length = m → rhsVal L r q (some u) = rhsVal L' r q (some u)) :
    ∀ o ∈ L, o ∈ L' ∨ (o.kind ∉ L'.map Op.kind ∧ o.IsZero) := by
  let ks := (L'.map Op.kind).filter fun k => k ∉ L.map Op.kind
  let ks' := (L.map Op.kind).filter fun k => k ∉ L'.map Op.kind
  have mk : ∀ ks : List OpKind, (ks.map (zeroOp (K := K) r m)).map Op.kind = ks := fun ks => by
    rw [map_map]
    exact (map_congr_left fun k _ => rfl).trans (map_id _)
  have hcal : ∀ {L : List (Op K)} (ks : List OpKind), (∀ o ∈ L, o.Cal r m) → ∀ o ∈ L ++ ks.map (zeroOp r m), o.Cal r m := by
    intro L ks hL o ho
    rcases mem_append.1 ho with ho | ho
    · exact hL o ho
    · obtain ⟨k, _, rfl⟩ := mem_map.1 ho
      exact zeroOp_cal r m k
  have n1 : ((L ++ ks.map (zeroOp r m)).map Op.kind).Nodup := by
    rw [map_append, mk]
    refine nodup_append.2 ⟨hn, hn'.filter _, fun a ha b hb e => ?_⟩
    have := (mem_filter.1 hb).2
    simp only [decide_eq_true_eq] at this
    exact this (e ▸ ha)
  have n2 : ((L' ++ ks'.map (zeroOp r m)).map Op.kind).Nodup := by
    rw [map_append, mk]
    refine nodup_append.2 ⟨hn', hn.filter _, fun a ha b hb e => ?_⟩
    have := (mem_filter.1 hb).2
    simp only [decide_eq_true_eq] at this
    exact this (e ▸ ha)
  have hp : ((L ++ ks.map (zeroOp (K := K) r m)).map Op.kind).Perm ((L' ++ ks'.map (zeroOp (K := K) r m)).map Op.kind) := by
    refine (perm_ext_iff_of_nodup n1 n2).2 fun k => ?_
    rw [map_append, map_append, mk, mk, mem_append, mem_append, mem_filter, mem_filter]
    simp only [decide_eq_true_eq]
    tauto
  have key := sums_determine_perm (hcal ks h) (hcal ks' h') hp n1 fun q u hq hu => by
    rw [rhsVal_zeros _ _ _ _ h, rhsVal_zeros _ _ _ _ h', he q u hq hu]
  intro o ho
  rcases mem_append.1 (key.subset (mem_append_left _ ho)) with h1 | h1
  · exact Or.inl h1
  · obtain ⟨k, hk, rfl⟩ := mem_map.1 h1
    have := (mem_filter.1 hk).2
    simp only [decide_eq_true_eq] at this
    exact Or.inr ⟨this, zeroOp_zero r m k⟩

/-! ### C113 -/

/-- **C113.** If two models with operators of pairwise distinct classes have the same right-hand side at all states and
inputs, then an operator of one of them is also an operator of the other one, with the same entries, or the other one has
no operator of this class and all its entries are zero. -/
theorem C113_rhs_determines {S S' : Type} [Field K] [Infinite K] (M : Model K S) (N : Model K S') (r m : Nat)
    (hM : ∀ o ∈ M.ops, o.Cal r m) (hN : ∀ o ∈ N.ops, o.Cal r m) (dM : M.kinds.Nodup) (dN : N.kinds.Nodup)
    (h : SameRhs M N r m) :
    (∀ o ∈ M.ops, o ∈ N.ops ∨ (o.kind ∉ N.kinds ∧ o.IsZero)) ∧
      ∀ o ∈ N.ops, o ∈ M.ops ∨ (o.kind ∉ M.kinds ∧ o.IsZero) := by
  have he : ∀ q u : List K, q.length = r → u.length = m → rhsVal M.ops r q (some u) = rhsVal N.ops r q (some u) := by
    intro q u hq hu
    have := h q u hq hu
    rw [rhs_eq M r m hM q _ hq fun o _ => some_ok _ hu, rhs_eq N r m hN q _ hq fun o _ => some_ok _ hu] at this
    exact Except.ok.inj this
  exact ⟨classes_determine hM hN dM dN he, classes_determine hN hM dN dM fun q u hq hu => (he q u hq hu).symm⟩

/-- **C113** (without inputs). The same for models without input operators, whose right-hand sides are evaluated without
an input. -/
theorem C113_rhs_determines_autonomous {S S' : Type} [Field K] [Infinite K] (M : Model K S) (N : Model K S') (r m : Nat)
    (hM : ∀ o ∈ M.ops, o.Cal r m) (hN : ∀ o ∈ N.ops, o.Cal r m) (dM : M.kinds.Nodup) (dN : N.kinds.Nodup)
    (iM : ∀ o ∈ M.ops, o.kind.hasInputs = false) (iN : ∀ o ∈ N.ops, o.kind.hasInputs = false)
    (h : SameRhsAutonomous M N r) :
    (∀ o ∈ M.ops, o ∈ N.ops ∨ (o.kind ∉ N.kinds ∧ o.IsZero)) ∧
      ∀ o ∈ N.ops, o ∈ M.ops ∨ (o.kind ∉ M.kinds ∧ o.IsZero) := by
  have none_ok : ∀ {L : List (Op K)}, (∀ o ∈ L, o.kind.hasInputs = false) →
      ∀ o ∈ L, InputOK o.kind m (none : Option (List K)) := fun hL o ho hin => by rw [hL o ho] at hin; cases hin
  have drop : ∀ {L : List (Op K)}, (∀ o ∈ L, o.Cal r m) → (∀ o ∈ L, o.kind.hasInputs = false) → ∀ q u : List K,
      q.length = r → u.length = m → rhsVal L r q (some u) = rhsVal L r q none := by
    intro L hL iL q u hq hu
    rw [rhsVal_stack hL q _ hq fun o _ => some_ok _ hu, rhsVal_stack hL q _ hq (none_ok iL),
      dataVector_ignores _ (by
        intro k hk
        obtain ⟨o, ho, rfl⟩ := mem_map.1 hk
        exact iL o ho) q _ ((none : Option (List K)).getD [])]
  refine C113_rhs_determines M N r m hM hN dM dN fun q u hq hu => ?_
  have := h q hq
  rw [rhs_eq M r m hM q _ hq (none_ok iM), rhs_eq N r m hN q _ hq (none_ok iN)] at this
  rw [rhs_eq M r m hM q _ hq fun o _ => some_ok _ hu, rhs_eq N r m hN q _ hq fun o _ => some_ok _ hu,
    drop hM iM q u hq hu, drop hN iN q u hq hu]
  exact this

/-- **C113.** Two models of the same class with the same dimensions and operators of the same, pairwise distinct classes
are equal if and only if their right-hand sides agree at all states and inputs. -/
theorem C113_equal_iff_same_rhs {S : Type} [Field K] [Infinite K] [DecidableEq K] (M N : Model K S) (r m : Nat)
    (hM : ∀ o ∈ M.ops, o.Cal r m) (hN : ∀ o ∈ N.ops, o.Cal r m) (dM : M.kinds.Nodup) (hk : M.kinds.Perm N.kinds)
    (er : M.r = N.r) (em : M.m = N.m) : M.beq N = true ↔ SameRhs M N r m := by
  rw [C17_equality_iff]
  constructor
  · rintro ⟨-, -, hp⟩ q u hq hu
    rw [rhs_eq M r m hM q _ hq fun o _ => some_ok _ hu, rhs_eq N r m hN q _ hq fun o _ => some_ok _ hu]
    exact congrArg Except.ok (sumTerms_perm (hp.map _) _)
  · intro h
    refine ⟨er, em, sums_determine_perm hM hN hk dM fun q u hq hu => ?_⟩
    have := h q u hq hu
    rw [rhs_eq M r m hM q _ hq fun o _ => some_ok _ hu, rhs_eq N r m hN q _ hq fun o _ => some_ok _ hu] at this
    exact Except.ok.inj this

/-- **C113** (one operator). Two operators of the same class with entries for the same dimensions are equal if and only if
`apply()` agrees at all states and inputs. -/
theorem C113_operator_equal_iff [Field K] [Infinite K] [DecidableEq K] (a b : Op K) (r m : Nat) (ha : a.Cal r m)
    (hb : b.Cal r m) (hk : a.kind = b.kind) :
    a.beq b = true ↔
      ∀ q u : List K, q.length = r → u.length = m → a.apply (.vec q) (some (.vec u)) = b.apply (.vec q) (some (.vec u)) := by
  rw [Op.beq_iff]
  refine ⟨fun e => by rw [e]; intros; rfl, fun h => ?_⟩
  have := sums_determine (L := [a]) (L' := [b]) (r := r) (m := m) (by simpa using ha) (by simpa using hb) (by simpa using hk)
    (by simp) fun q u hq hu => by
      obtain ⟨x, h1, _, h3⟩ := Op.apply_vec ha q (some u) hq (some_ok _ hu)
      obtain ⟨y, h4, _, h6⟩ := Op.apply_vec hb q (some u) hq (some_ok _ hu)
      have e := h q u hq hu
      simp only [Option.map_some] at h1 h4
      rw [h1, h4, Except.ok.injEq] at e
      simp only [rhsVal, map_cons, map_nil]
      rw [← h3, ← h6, e]
  simpa using this

/-- **C113** (`PolynomialOperator`, any order). Entries of the same shape that act alike are the same. -/
theorem C113_polynomial_determines [Field K] [Infinite K] (p r : Nat) (E F : Mat K) (hE : E.WF) (hF : F.WF)
    (e1 : E.nrows = r) (e2 : E.ncols = polyDim p r) (f1 : F.nrows = r) (f2 : F.ncols = polyDim p r)
    (h : ∀ q : List K, q.length = r → polyApply p E q = polyApply p F q) : E = F := by
  have hcol : ∀ G : Mat K, G.WF → G.nrows = r → G.ncols = polyDim p r → ∀ q : List K, q.length = r →
      polyApply p G q = .ok (matVec G.rows (expP q p)) := by
    intro G hG g1 g2 q hq
    rw [polyApply, if_neg (by rw [hq, g1]; simp)]
    split
    · rename_i h0
      subst h0
      simp only [expP, matVec]
      congr 1
      refine map_congr_left fun row hrow => ?_
      have : row.length = 1 := by rw [hG.2 row hrow, g2]; rfl
      obtain ⟨x, rfl⟩ := length_eq_one_iff.1 this
      simp [dot]
    · split
      · rename_i h1
        subst h1
        rfl
      · rfl
  have hlen : ∀ x : Nat → K, expP (stateAt r x) p = (monoms p r).map fun l => (l.map x).prod := by
    intro x
    rw [expP_eq, length_stateAt]
    exact map_congr_left fun l hl => mono_stateAt r x l (mem_monoms.1 hl).2.2
  have hdim : polyDim p r = (monoms p r).length := by
    have := (C08_polynomial_dimension p (stateAt r fun _ => (0 : K))).2.2
    rw [hlen, length_map, length_stateAt] at this
    exact this.symm
  obtain ⟨a, b, A⟩ := E
  obtain ⟨c, d, B⟩ := F
  simp only at e1 e2 f1 f2
  subst e1 e2 f1 f2
  congr 1
  refine ext_getElem (by rw [hE.1, hF.1]) fun i h1 h2 => ?_
  have l1 := hE.2 _ (getElem_mem h1)
  have l2 := hF.2 _ (getElem_mem h2)
  simp only at l1 l2 h1 h2
  refine vsub_zero_mem (by rw [l1, l2]) ?_
  refine monomials_free (monoms p c) (nodup_monoms _ _) (fun l hl => (mem_monoms.1 hl).2.1) _
    (by rw [length_vsub, l1, l2, min_self, hdim]) fun x => ?_
  have e := h (stateAt c x) (length_stateAt c x)
  rw [hcol _ hE rfl rfl _ (length_stateAt c x), hcol _ hF rfl rfl _ (length_stateAt c x), Except.ok.injEq, hlen] at e
  have e := congrArg (fun l => l.getD i 0) e
  simp only [matVec] at e
  rw [Opinf.getD_eq_getElem _ 0 (by simpa using h1), Opinf.getD_eq_getElem _ 0 (by simpa using h2)] at e
  simp only [getElem_map] at e
  rw [dot_vsub_left _ _ _ (by rw [l1, l2]), e, sub_self]

/-! ### How many snapshots determine the operators -/

/-- The number of columns of the data matrix. -/
def totalDim (kinds : List OpKind) (r m : Nat) : Nat := (kinds.map fun o => o.dim r m).sum

theorem dataVector_full [CommSemiring K] (kinds : List OpKind) {r m : Nat} {q u : List K} (hq : q.length = r)
    (hu : u.length = m) : (dataVector kinds q u).length = totalDim kinds r m := by
  rw [dataVector, length_flatMap, totalDim]
  exact congrArg List.sum (map_congr_left fun o _ => by rw [dataCol_length, hq, hu])

/-- **C113.** For operators of pairwise distinct classes there are as many states and inputs as the data matrix has
columns that determine the operators (`Informative`, the condition of C76). -/
theorem C113_enough_snapshots [Field K] [Infinite K] (kinds : List OpKind) (hn : kinds.Nodup) (r m : Nat) :
    ∃ xs : List (List K × List K), xs.length = totalDim kinds r m ∧ (∀ x ∈ xs, x.1.length = r ∧ x.2.length = m) ∧
      Informative kinds (totalDim kinds r m) xs.length (fun j => (xs.map Prod.fst).getD j [])
        (fun j => some ((xs.map Prod.snd).getD j [])) := by
  let f : {x : List K × List K // x.1.length = r ∧ x.2.length = m} → List K := fun x => dataVector kinds x.1.1 x.1.2
  obtain ⟨xs, h1, h2⟩ := enough_samples (totalDim kinds r m) f (fun x => dataVector_full kinds x.2.1 x.2.2)
    fun v hv h => dataVector_free kinds hn r m v hv fun q u hq hu => h ⟨(q, u), hq, hu⟩
  refine ⟨xs.map Subtype.val, by rw [length_map, h1], fun x hx => ?_, fun v hv h => ?_⟩
  · obtain ⟨y, _, rfl⟩ := mem_map.1 hx
    exact y.2
  · refine h2 v hv fun x hx => ?_
    obtain ⟨j, hj, rfl⟩ := mem_iff_getElem.1 hx
    have := h j (by simpa using hj)
    simp only [map_map] at this
    rw [Opinf.getD_eq_getElem _ _ (by simpa using hj), Opinf.getD_eq_getElem _ _ (by simpa using hj)] at this
    simpa [f] using this

/-- **C113.** Fewer snapshots than columns of the data matrix never determine the operators. -/
theorem C113_too_few_snapshots [Field K] (kinds : List OpKind) (r m k : Nat) (hk : k < totalDim kinds r m)
    (q : Nat → List K) (u : Nat → Option (List K)) (hq : ∀ j < k, (q j).length = r)
    (hu : ∀ j < k, ∀ o ∈ kinds, InputOK o m (u j)) : ¬ Informative kinds (totalDim kinds r m) k q u := by
  intro h
  let f : Fin k → List K := fun j => dataVector kinds (q j) ((u j).getD [])
  obtain ⟨v, h1, h2, y, hy, hne⟩ := too_few_samples (totalDim kinds r m) f
    (fun j => by
      simp only [f, dataVector, length_flatMap, totalDim]
      exact congrArg List.sum (map_congr_left fun o ho => dataCol_length_ok (hq j j.2) (hu j j.2 o ho)))
    (finRange k) (by simpa using hk)
  exact hne (h v h1 (fun j hj => h2 ⟨j, hj⟩ (mem_finRange _)) y hy)

/-- **C113** (training). For every model whose operators to learn are of distinct classes there are as many states and
inputs as the data matrix has columns such that training with the `PlainSolver` at these states and inputs recovers every
model with these operators, from its right-hand sides there. -/
theorem C113_design [Field K] [LinearOrder K] [IsStrictOrderedRing K] (M : Model K (Plain K)) (hM : M.Inv)
    (hint : M.intrusive = false) (hn : M.toInfer.Nodup) (r m : Nat) (hr : 0 < r) :
    ∃ xs : List (List K × List K), xs.length = totalDim M.toInfer r m ∧
      (∀ x ∈ xs, x.1.length = r ∧ x.2.length = m) ∧
      ∀ (lstsq : Mat K → Mat K → Except Err (Mat K)), (∀ A B X, lstsq A B = .ok X → IsLstsq A B X) →
      ∀ (inputs : Option (Arg K)) (lhs : Arg K) (M' : Model K (Plain K)) (S' : Type) (N : Model K S'),
        (inputs = some (.mat m (xs.map Prod.snd)) ∨ (inputs = none ∧ ∀ o ∈ M.toInfer, o.hasInputs = false)) →
        lhs.WF → (∀ o ∈ N.ops, o.Cal r m) → Completes M N →
        (∀ j < xs.length, N.rhs ((xs.map Prod.fst).getD j []) (inputAt inputs j) = .ok ((atleast2d lhs).2.getD j [])) →
        M.fit (plainSolver lstsq) (.mat r (xs.map Prod.fst)) lhs inputs = (M', .ok ()) → M'.ops = N.ops := by
  have : Infinite K := inferInstance
  obtain ⟨xs, h1, h2, h3⟩ := C113_enough_snapshots (K := K) M.toInfer hn r m
  refine ⟨xs, h1, h2, fun lstsq hls inputs lhs M' S' N hin hl hcal hN hdata hfit => ?_⟩
  have hwf : ∀ a ∈ inputs, a.WF ∧ (atleast2d a).1 = m := by
    intro a ha
    rcases hin with rfl | ⟨rfl, _⟩
    · cases ha
      refine ⟨fun c hc => ?_, rfl⟩
      obtain ⟨x, hx, rfl⟩ := mem_map.1 hc
      exact (h2 x hx).2
    · cases ha
  refine C76_fit_recovers lstsq hls M hM hint (.mat r (xs.map Prod.fst)) lhs inputs (fun c hc => ?_) hl
    (fun a ha => (hwf a ha).1) hr M' hfit N m hcal (fun a ha => (hwf a ha).2) hN
    (fun j hj => hdata j (by simpa [atleast2d] using hj)) fun v hv hz => h3 v hv fun j hj => ?_
  · obtain ⟨x, hx, rfl⟩ := mem_map.1 hc
    exact (h2 x hx).1
  · have := hz j (by simpa [atleast2d] using hj)
    rcases hin with rfl | ⟨rfl, hno⟩
    · exact this
    · rw [dataVector_ignores _ hno _ _ ((inputAt (none : Option (Arg K)) j).getD [])]
      exact this

/-! ### Examples -/

/-- Two models with a constant, a quadratic and a state-input operator (`r = 1`, `m = 1`), in different orders, and a
model with an additional linear operator with entry zero. -/
def likeA : Model ℚ Unit :=
  ⟨[⟨⟨.const, some ⟨1, 1, [[2]]⟩⟩, false⟩, ⟨⟨.kron .quad, some ⟨1, 1, [[3]]⟩⟩, false⟩, ⟨⟨.stateInp, some ⟨1, 1, [[5]]⟩⟩, false⟩],
    true, some 1, some 1, true, none⟩

def likeB : Model ℚ Unit :=
  ⟨[⟨⟨.stateInp, some ⟨1, 1, [[5]]⟩⟩, false⟩, ⟨⟨.lin, some ⟨1, 1, [[0]]⟩⟩, false⟩, ⟨⟨.const, some ⟨1, 1, [[2]]⟩⟩, false⟩,
    ⟨⟨.kron .quad, some ⟨1, 1, [[3]]⟩⟩, false⟩], true, some 1, some 1, true, none⟩

theorem like_same : SameRhs likeA likeB 1 1 := by
  intro q u hq hu
  obtain ⟨x, rfl⟩ := length_eq_one_iff.1 hq
  obtain ⟨y, rfl⟩ := length_eq_one_iff.1 hu
  have hA : ∀ o ∈ likeA.ops, o.Cal 1 1 := by
    intro o ho
    simp only [likeA, Model.ops, map_cons, map_nil, mem_cons, not_mem_nil, or_false] at ho
    rcases ho with rfl | rfl | rfl <;> exact ⟨_, rfl, by decide +kernel, rfl, rfl⟩
  have hB : ∀ o ∈ likeB.ops, o.Cal 1 1 := by
    intro o ho
    simp only [likeB, Model.ops, map_cons, map_nil, mem_cons, not_mem_nil, or_false] at ho
    rcases ho with rfl | rfl | rfl | rfl <;> exact ⟨_, rfl, by decide +kernel, rfl, rfl⟩
  rw [rhs_eq likeA 1 1 hA _ _ rfl fun o _ => some_ok _ rfl, rhs_eq likeB 1 1 hB _ _ rfl fun o _ => some_ok _ rfl]
  simp [rhsVal, likeA, likeB, Model.ops, Op.val, OpKind.dataCol, matVec, dot, vadd, kron]
  ring

example : (∀ o ∈ likeA.ops, o.Cal 1 1) ∧ (∀ o ∈ likeB.ops, o.Cal 1 1) ∧ likeA.kinds.Nodup ∧ likeB.kinds.Nodup ∧
    SameRhs likeA likeB 1 1 ∧ (∃ o ∈ likeB.ops, o ∉ likeA.ops ∧ o.IsZero) := by
  refine ⟨?_, ?_, by decide, by decide, like_same, ⟨.lin, some ⟨1, 1, [[0]]⟩⟩, by decide +kernel, by decide +kernel, ?_⟩
  · intro o ho
    simp only [likeA, Model.ops, map_cons, map_nil, mem_cons, not_mem_nil, or_false] at ho
    rcases ho with rfl | rfl | rfl <;> exact ⟨_, rfl, by decide +kernel, rfl, rfl⟩
  · intro o ho
    simp only [likeB, Model.ops, map_cons, map_nil, mem_cons, not_mem_nil, or_false] at ho
    rcases ho with rfl | rfl | rfl | rfl <;> exact ⟨_, rfl, by decide +kernel, rfl, rfl⟩
  · intro row hrow x hx
    simp only [Op.rowsOf, Option.elim_some, mem_singleton] at hrow
    subst hrow
    simpa using hx

/-- Two models with two linear operators each. -/
def twiceA : Model ℚ Unit :=
  ⟨[⟨⟨.lin, some ⟨1, 1, [[1]]⟩⟩, false⟩, ⟨⟨.lin, some ⟨1, 1, [[2]]⟩⟩, false⟩], false, some 1, none, true, none⟩

def twiceB : Model ℚ Unit :=
  ⟨[⟨⟨.lin, some ⟨1, 1, [[3]]⟩⟩, false⟩, ⟨⟨.lin, some ⟨1, 1, [[0]]⟩⟩, false⟩], false, some 1, none, true, none⟩

/-- **C113.** The distinctness of the classes is needed: known linear operators may be exchanged for two others with the
same sum (a model may contain several known operators of the same class, C57). -/
theorem C113_distinct_needed : SameRhs twiceA twiceB 1 0 ∧ ¬ twiceA.kinds.Nodup ∧ twiceA.kinds = twiceB.kinds ∧
    twiceA.beq twiceB = false := by
  refine ⟨fun q u hq hu => ?_, by decide, rfl, by decide +kernel⟩
  obtain ⟨x, rfl⟩ := length_eq_one_iff.1 hq
  have hA : ∀ o ∈ twiceA.ops, o.Cal 1 0 := by
    intro o ho
    simp only [twiceA, Model.ops, map_cons, map_nil, mem_cons, not_mem_nil, or_false] at ho
    rcases ho with rfl | rfl <;> exact ⟨_, rfl, by decide +kernel, rfl, rfl⟩
  have hB : ∀ o ∈ twiceB.ops, o.Cal 1 0 := by
    intro o ho
    simp only [twiceB, Model.ops, map_cons, map_nil, mem_cons, not_mem_nil, or_false] at ho
    rcases ho with rfl | rfl <;> exact ⟨_, rfl, by decide +kernel, rfl, rfl⟩
  rw [rhs_eq twiceA 1 0 hA _ _ rfl fun o _ => some_ok _ hu, rhs_eq twiceB 1 0 hB _ _ rfl fun o _ => some_ok _ hu]
  simp [rhsVal, twiceA, twiceB, Model.ops, Op.val, OpKind.dataCol, matVec, dot, vadd]
  ring

/-- Three snapshots are needed and suffice for a constant, a linear and an input operator with `r = m = 1`. -/
example : totalDim [.const, .lin, .inp] 1 1 = 3 ∧
    Informative (K := ℚ) [.const, .lin, .inp] 3 3 (fun j => [[0], [1], [0]].getD j []) (fun j => some ([[0], [0], [1]].getD j [])) := by
  refine ⟨by decide, fun x hx h => ?_⟩
  obtain ⟨a, b, c, rfl⟩ := length_eq_three.1 hx
  have h0 := h 0 (by decide)
  have h1 := h 1 (by decide)
  have h2 := h 2 (by decide)
  simp [dataVector, OpKind.dataCol, dot] at h0 h1 h2
  subst h0
  simp_all

/-- The hypotheses of the training statement. -/
example : exScalar.Inv ∧ exScalar.intrusive = false ∧ exScalar.toInfer.Nodup ∧ totalDim exScalar.toInfer 1 0 = 1 :=
  ⟨exScalar_inv, rfl, by decide, by decide⟩

/-- Different entries of a `PolynomialOperator` act differently. -/
example : polyApply (K := ℚ) 2 ⟨2, 3, [[1, 0, 2], [0, 1, 0]]⟩ [1, 2] ≠ polyApply 2 ⟨2, 3, [[1, 1, 2], [0, 1, 0]]⟩ [1, 2] := by
  decide +kernel

end Opinf
