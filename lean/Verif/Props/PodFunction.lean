import Verif.Props.PodSolver

/-!
# C100: `pod_basis()`
-/

namespace Opinf

open List

variable {K : Type} [Field K] [LinearOrder K]

/-- The criteria that `pod_basis()` uses: without any, as many vectors as the states allow. -/
def CritArgs.orAll (a : CritArgs K) (n k : Nat) : CritArgs K :=
  if a.provided.isEmpty then { a with num := some ((min n k : Nat) : Int) } else a

/-- What a successful call of `pod_basis()` did. -/
theorem podBasis_inv {lib : PodLib K} {k : Nat} {rows : List (List K)} {a : CritArgs K} {mw : Option Int}
    {arg : SvdArg} {W : WArg K} {right : Bool} {o : SvdOpts K} {V : Cols K} {vals : List K} {R : Option (Cols K)}
    (h : podBasis lib (.mat k rows) a mw arg W right o = .ok (V, vals, R)) :
    ∃ s s', SolverPod.make (a.orAll rows.length k) mw arg W none o = .ok s ∧ s.fit lib (.mat k rows) = (s', .ok ()) ∧
      s'.output right = .ok (V, vals, R) := by
  unfold podBasis at h
  have e : (if a.provided.isEmpty then { a with num := some ((Snap.mat k rows).minShape : Int) } else a)
      = a.orAll rows.length k := rfl
  rw [e] at h
  simp only at h
  cases hs : SolverPod.make (a.orAll rows.length k) mw arg W none o with
  | error e => rw [hs] at h; cases h
  | ok s =>
    rw [hs] at h
    simp only [bind, Except.bind] at h
    obtain ⟨s', hf⟩ : ∃ s', s' = (s.fit lib (.mat k rows)).1 := ⟨_, rfl⟩
    cases h2 : (s.fit lib (.mat k rows)).2 with
    | error e => rw [h2] at h; cases h
    | ok u =>
      rw [h2, ← hf] at h
      exact ⟨s, s', rfl, Prod.ext hf.symm h2, h⟩

/-- The result of a fit in terms of the underlying basis. -/
theorem solverFit_inv {lib : PodLib K} {s s' : SolverPod K} {Y : Snap K} (h : s.fit lib Y = (s', .ok ())) :
    s.rootMissing = false ∧ s.pod.fit (lib.ext s.label s.opts (s.kept Y)) Y = (s'.pod, .ok ()) := by
  unfold SolverPod.fit at h
  split at h
  · cases h
  · rename_i hr
    simp only [Prod.mk.injEq] at h
    refine ⟨by simpa using hr, Prod.ext ?_ h.2⟩
    rw [← h.1]

/-- **C100** (`pod_basis()` is `PODBasis`): it returns the entries and the singular values of the basis that is
constructed with the same arguments and fitted. -/
theorem C100_function_is_class (lib : PodLib K) (k : Nat) (rows : List (List K)) (a : CritArgs K) (mw : Option Int)
    (arg : SvdArg) (W : WArg K) (right : Bool) (o : SvdOpts K) (V : Cols K) (vals : List K) (R : Option (Cols K))
    (h : podBasis lib (.mat k rows) a mw arg W right o = .ok (V, vals, R)) :
    ∃ s s' d, SolverPod.make (a.orAll rows.length k) mw arg W none o = .ok s ∧
      s.fit lib (.mat k rows) = (s', .ok ()) ∧ s'.pod.lin.entries = some V ∧ s'.pod.svd = some d ∧ d.vals = vals ∧
      (right = false → R = none) ∧
      (right = true → ∃ R', d.right = some R' ∧ R = some (R'.upTo (s'.pod.lin.r.getD 0))) := by
  obtain ⟨s, s', h1, h2, h3⟩ := podBasis_inv h
  unfold SolverPod.output at h3
  cases he : s'.pod.lin.entries with
  | none => rw [he] at h3; cases h3
  | some V' =>
    cases hd : s'.pod.svd with
    | none => rw [he, hd] at h3; cases h3
    | some d =>
      rw [he, hd] at h3
      simp only at h3
      refine ⟨s, s', d, h1, h2, ?_, hd, ?_, ?_, ?_⟩
      all_goals
        cases right with
        | false =>
          simp only [Bool.false_eq_true, if_false, Except.ok.injEq, Prod.mk.injEq] at h3
          obtain ⟨rfl, rfl, rfl⟩ := h3
          simp [he]
        | true =>
          cases hr : d.right with
          | none => rw [hr] at h3; cases h3
          | some R' =>
            rw [hr] at h3
            simp only [if_true, Except.ok.injEq, Prod.mk.injEq] at h3
            obtain ⟨rfl, rfl, rfl⟩ := h3
            simp [he]

/-- The numbers of vectors that are asked for are not negative. -/
def CritArgs.sane (a : CritArgs K) : Prop := ∀ v ∈ a.num, 0 ≤ v

omit [Field K] [LinearOrder K] in
theorem orAll_sane {a : CritArgs K} (ha : a.sane) (n k : Nat) : (a.orAll n k).sane := by
  unfold CritArgs.orAll
  split
  · intro v hv
    simp only [Option.mem_some_iff] at hv
    subst hv
    exact Int.natCast_nonneg _
  · exact ha

variable [IsStrictOrderedRing K]

omit [IsStrictOrderedRing K] in
theorem normalize_desc {vals w : List K} (hd : vals.Pairwise (· ≥ ·)) (h : normalizeVals vals = .ok w) :
    ∃ a rest, vals = a :: rest ∧ a ≠ 0 ∧ w = vals.map (· / a) := by
  have hs : vals.insertionSort (· ≥ ·) = vals := hd.insertionSort_eq
  simp only [normalizeVals, hs] at h
  cases vals with
  | nil => simp at h
  | cons a rest =>
    simp only at h
    split at h
    · cases h
    · rename_i ha
      exact ⟨a, rest, rfl, ha, (Except.ok.inj h).symm⟩

/-- Everything `pod_basis()` is documented to return: vectors `V` orthonormal in the inner product with the weights,
that approximate the states `Y` best; singular values in descending order, the first of which is one; and right
vectors, as many as left ones, with which (and the largest singular value `sigma`) the coordinates of the states are
`V^T W Y = sigma diag(vals) R^T`. -/
structure PodResult (W : Option (Weights K)) (Y : Snap K) (V : Cols K) (vals : List K) (R : Option (Cols K)) :
    Prop where
  best : ∃ b P, BestBasis b Y P V ∧ b.weights = W
  first : vals.head? = some 1
  desc : vals.Pairwise (· ≥ ·)
  nonneg : ∀ x ∈ vals, 0 ≤ x
  right : ∀ R', R = some R' → R'.cols.length = V.cols.length ∧ ∃ sigma, 0 < sigma ∧
    ∀ l j, l < V.cols.length → j < Y.width →
      dot (V.cols.getD l []) (wvec W (Y.column j)) = sigma * vals.getD l 0 * (R'.cols.getD l []).getD j 0

/-- The dimension: with a limit `m` on the stored vectors. -/
theorem getD_take {α : Type} (l : List α) (d : α) {i m : Nat} (h : i < m) : (l.take m).getD i d = l.getD i d := by
  rw [getD_eq_getElem?_getD, getD_eq_getElem?_getD, getElem?_take_of_lt h]

/-- **C100** (`pod_basis()`): with any solver other than the method of snapshots, that computes thin singular value
decompositions, and any weights with a symmetric root, the result is as documented. -/
theorem C100_pod_basis (lib : PodLib K) (n k : Nat) (rows : List (List K)) (hY : (Snap.mat k rows).Shaped n (some k))
    (a : CritArgs K) (ha : a.sane) (mw : Option Int) (arg : SvdArg) (l : SvdLabel) (hl : arg.label = .ok l)
    (hns : l ≠ .snapshots) (W : WArg K) (w : Option (Weights K)) (hW : W.toWeights = .ok w) (right : Bool)
    (o : SvdOpts K) (hroot : ∀ m, RootOf (lib.ext l o m) n w)
    (hsvd : ∀ m Z L vals R, Z.Shaped n (some k) → lib.engine l (svdOptions l o m none) Z = .ok (L, vals, R) →
      IsThinSvd n (columnsOf Z) L vals R)
    (V : Cols K) (vals : List K) (R : Option (Cols K))
    (h : podBasis lib (.mat k rows) a mw arg W right o = .ok (V, vals, R)) :
    PodResult w (.mat k rows) V vals R ∧ (R.isSome = right) := by
  obtain ⟨s, s', d, h1, h2, h3, h4, h5, h6, h7⟩ := C100_function_is_class lib k rows a mw arg W right o V vals R h
  obtain ⟨p, l1, w1, c, hp, g1, g2, g3, e1, e2, e3, e4, hs⟩ := make_inv h1
  obtain rfl : l1 = l := Except.ok.inj (g1.symm.trans hl)
  obtain rfl : w1 = w := Except.ok.inj (g2.symm.trans hW)
  obtain ⟨-, hf⟩ := solverFit_inv h2
  have hm : s.pod.mos = false := by rw [hs]; simp [SolverPod.withLabel, hns]
  have hlab : s.label = l1 := by rw [hs]; rfl
  have hopt : s.opts = o := by rw [hs]; rfl
  have hwt : s.pod.lin.weights = w1 := by rw [hs]; simp [SolverPod.withLabel, e1]
  have hcr : s.pod.crit.sane := by
    have : s.pod.crit = c := by rw [hs]; simp [SolverPod.withLabel, e2]
    rw [this]
    exact pick_sane _ (orAll_sane ha _ _) _ g3
  rw [hlab, hopt] at hf
  obtain ⟨mk, hmk⟩ : ∃ m, m = s.kept (.mat k rows) := ⟨_, rfl⟩
  rw [← hmk] at hf
  have hr' : RootOf (lib.ext l1 o mk) n s.pod.lin.weights := by rw [hwt]; exact hroot mk
  obtain ⟨Z, L, v0, R0, V0, v1, q1, q2, q3, q4, q5, q6, q7⟩ := pod_fit_inv _ s.pod k rows s'.pod hf
  obtain ⟨c1, c2⟩ := q7 hcr
  rw [hm] at q2
  have hZ := (weighted_root s.pod hm hr' _ Z _ hY q1).1
  have hthin := hsvd mk Z L v0 R0 hZ q2
  have hcore := podCore_svd s.pod hm hr' _ Z _ hY q1 L v0 R0 V0 hthin q3
  have hLn : ∀ c ∈ L.cols, c.length = n := fun c hc => by rw [hthin.leftWF c hc, hthin.leftN]
  obtain ⟨u1, u2, u3⟩ := unweighted_root s.pod hm hr' L V0 hLn q3
  have hVlen : V0.cols.length = v0.length := by rw [← hthin.leftLen, ← u3, length_map]
  obtain ⟨V', P, rho, b1, b2, b3, -⟩ := C74_best_basis (lib.ext l1 o mk) s.pod hm hcr n k rows hY hr'
    (fun Z L vals R hZ he => hsvd mk Z L vals R hZ he) s'.pod hf [] (by simp)
  simp only [foldl_nil] at b1 b2 b3
  obtain rfl : V' = V := Option.some.inj (b1.has.entries.symm.trans h3)
  rw [q5] at h4
  obtain rfl := Option.some.inj h4
  subst h5
  obtain ⟨r, t1, t2, t3, t4, t5, t6⟩ := c1.trained _ q5
  obtain ⟨sig, rest, x1, x2, x3⟩ := normalize_desc hthin.desc q4
  have hsig : 0 < sig := lt_of_le_of_ne (hthin.nonneg sig (by rw [x1]; simp)) (Ne.symm x2)
  refine ⟨⟨⟨s'.pod.lin, P, b1, by rw [b3, hwt]⟩, ?_, ?_, ?_, ?_⟩, ?_⟩
  · rw [x3, x1]; simp [x2]
  · rw [x3]
    exact hthin.desc.map _ fun x y hxy => div_le_div_of_nonneg_right hxy hsig.le
  · intro x hx
    rw [x3] at hx
    obtain ⟨y, hy, rfl⟩ := mem_map.1 hx
    exact div_nonneg (hthin.nonneg y hy) hsig.le
  · intro R' hR
    cases right with
    | false => rw [h6 rfl] at hR; cases hR
    | true =>
      obtain ⟨R1, y1, y2⟩ := h7 rfl
      obtain rfl := Option.some.inj y1
      rw [y2] at hR
      obtain rfl := Option.some.inj hR
      rw [h3] at t4
      obtain rfl := Option.some.inj t4
      have hr0 : ¬ ((r : Int) < 0) := by omega
      simp only [t2, Option.getD_some, Cols.upTo, if_neg hr0, Int.toNat_natCast]
      have hcap : r ≤ min (s.pod.keep rows.length k) V0.cols.length := by simpa using t1
      refine ⟨?_, sig, hsig, ?_⟩
      · simp only [length_take, hthin.rightLen, hVlen]
      · intro i j hi hj
        have hi' : i < r := by
          simp only [length_take] at hi
          omega
        have hk : i < s.pod.keep rows.length k := by omega
        rw [getD_take _ _ hi', getD_take _ _ hk, getD_take _ _ hi', getD_take _ _ hk]
        have hcol : (columnsOf (Snap.mat k rows)).getD j [] = (Snap.mat k rows).column j := by
          simp [columnsOf, getD_eq_getElem?_getD, hj]
        have hq := hcore.coords i j (by omega) (by simpa [columnsOf] using hj)
        rw [hcol, hwt] at hq
        rw [hq, x3]
        congr 1
        have : i < v0.length := by omega
        simp only [getD_eq_getElem?_getD, getElem?_map, getElem?_eq_getElem this, Option.map_some, Option.getD_some]
        field_simp
  · cases right with
    | false => rw [h6 rfl]; rfl
    | true =>
      obtain ⟨R1, -, y2⟩ := h7 rfl
      rw [y2]; rfl

omit [IsStrictOrderedRing K] in
/-- The number of vectors after `fit`. -/
theorem pod_fit_dim (ext : PodExt K) (s : Pod K) (hc : s.crit.sane) (k : Nat) (rows : List (List K)) (s' : Pod K)
    (h : s.fit ext (.mat k rows) = (s', .ok ())) (d : SvdData K) (hd : s'.svd = some d) (V : Cols K)
    (hV : s'.lin.entries = some V) :
    V.cols.length = min (s.crit.dim ext.sqrt d.vals).toNat d.left.cols.length := by
  simp only [Pod.fit] at h
  cases he : s.decompose ext (.mat k rows) with
  | error e => rw [he] at h; cases h
  | ok q =>
    obtain ⟨L, vals, R⟩ := q
    rw [he] at h
    simp only [Pod.storeSvd] at h
    cases hw : normalizeVals vals with
    | error e => rw [hw] at h; cases h
    | ok w =>
      rw [hw] at h
      simp only [Pod.setFromCrit] at h
      have e1 := congrArg Prod.fst h
      simp only at e1
      rw [← e1, setR_svd] at hd
      obtain rfl := Option.some.inj hd
      have h0 := Crit.dim_nonneg ext.sqrt s.crit hc w
      rw [setR_trained _ _ rfl _ (Or.inl h0)] at e1
      rw [← e1] at hV
      obtain rfl := Option.some.inj hV
      simp only [length_take, effective, if_neg (not_lt.2 h0)]
      omega

/-- **C100** (how many): all computed singular values are returned. Without a criterion and without a limit, as many
vectors are returned as the smaller of the two dimensions of the states, if the solver computes that many; with
`num_vectors` that number, unless the solver computes fewer. -/
theorem C100_counts (lib : PodLib K) (n k : Nat) (rows : List (List K)) (hY : (Snap.mat k rows).Shaped n (some k))
    (a : CritArgs K) (ha : a.sane) (arg : SvdArg) (l : SvdLabel) (hl : arg.label = .ok l) (hns : l ≠ .snapshots)
    (W : WArg K) (w : Option (Weights K)) (hW : W.toWeights = .ok w) (right : Bool)
    (o : SvdOpts K) (hroot : ∀ m, RootOf (lib.ext l o m) n w)
    (hsvd : ∀ m Z L vals R, Z.Shaped n (some k) → lib.engine l (svdOptions l o m none) Z = .ok (L, vals, R) →
      IsThinSvd n (columnsOf Z) L vals R ∧ vals.length = min n k)
    (V : Cols K) (vals : List K) (R : Option (Cols K))
    (h : podBasis lib (.mat k rows) a none arg W right o = .ok (V, vals, R)) :
    vals.length = min n k ∧ (a.provided = [] → V.cols.length = min n k) ∧
      ∀ m : Nat, a.num = some (m : Int) → V.cols.length = min m (min n k) := by
  obtain ⟨s, s', d, h1, h2, h3, h4, h5, h6, h7⟩ := C100_function_is_class lib k rows a none arg W right o V vals R h
  obtain ⟨p, l1, w1, c, hp, g1, g2, g3, e1, e2, e3, e4, hs⟩ := make_inv h1
  obtain rfl : l1 = l := Except.ok.inj (g1.symm.trans hl)
  obtain rfl : w1 = w := Except.ok.inj (g2.symm.trans hW)
  obtain ⟨-, hf⟩ := solverFit_inv h2
  have hm : s.pod.mos = false := by rw [hs]; simp [SolverPod.withLabel, hns]
  have hlab : s.label = l1 := by rw [hs]; rfl
  have hopt : s.opts = o := by rw [hs]; rfl
  have hwt : s.pod.lin.weights = w1 := by rw [hs]; simp [SolverPod.withLabel, e1]
  have hcrit : s.pod.crit = c := by rw [hs]; simp [SolverPod.withLabel, e2]
  have hmax : s.pod.maxWanted = none := by rw [hs]; simp [SolverPod.withLabel, e3]
  have hcr : s.pod.crit.sane := by
    rw [hcrit]
    exact pick_sane _ (orAll_sane ha _ _) _ g3
  have hn : rows.length = n := hY.len
  rw [hlab, hopt] at hf
  obtain ⟨mk, hmk⟩ : ∃ m, m = s.kept (.mat k rows) := ⟨_, rfl⟩
  rw [← hmk] at hf
  have hr' : RootOf (lib.ext l1 o mk) n s.pod.lin.weights := by rw [hwt]; exact hroot mk
  obtain ⟨Z, L, v0, R0, V0, v1, q1, q2, q3, q4, q5, q6, q7⟩ := pod_fit_inv _ s.pod k rows s'.pod hf
  rw [hm] at q2
  have hZ := (weighted_root s.pod hm hr' _ Z _ hY q1).1
  obtain ⟨hthin, hlen⟩ := hsvd mk Z L v0 R0 hZ q2
  have hLn : ∀ c ∈ L.cols, c.length = n := fun c hc => by rw [hthin.leftWF c hc, hthin.leftN]
  obtain ⟨u1, u2, u3⟩ := unweighted_root s.pod hm hr' L V0 hLn q3
  have hVlen : V0.cols.length = v0.length := by rw [← hthin.leftLen, ← u3, length_map]
  obtain ⟨sig, rest, x1, x2, x3⟩ := normalize_desc hthin.desc q4
  have hv1 : v1.length = min n k := by rw [x3, length_map, hlen]
  have hdim := pod_fit_dim _ s.pod hcr k rows s'.pod hf _ q5 V h3
  have hkeep : s.pod.keep rows.length k = min n k := by rw [Pod.keep, hmax, hn]
  rw [q5] at h4
  obtain rfl := Option.some.inj h4
  subst h5
  simp only [length_take, hVlen, hlen, hkeep, hcrit] at hdim
  refine ⟨hv1, ?_, ?_⟩
  · intro h0
    have hc : c = .num ((min n k : Nat) : Int) := by
      have : a.orAll rows.length k = { a with num := some ((min n k : Nat) : Int) } := by
        rw [CritArgs.orAll, h0, hn]; rfl
      rw [this] at g3
      exact (Except.ok.inj g3).symm
    rw [hdim, hc, Crit.dim, Int.toNat_natCast]
    omega
  · intro m hm
    have hc : c = .num (m : Int) := by
      have : a.orAll rows.length k = a := by
        rw [CritArgs.orAll, if_neg]
        simp [CritArgs.provided, hm]
      rw [this] at g3
      have : a.pick = .ok (.num (m : Int)) := by simp [CritArgs.pick, CritArgs.provided, hm]
      exact Except.ok.inj (g3.symm.trans this)
    rw [hdim, hc, Crit.dim, Int.toNat_natCast]
    omega

omit [IsStrictOrderedRing K] in
/-- **C100** (the defect): the number of singular values that the randomized solver is asked for by `pod_basis()` is
the smaller of the dimensions of the states, and not, as documented, the number of vectors. -/
theorem C100_randomized_components (lib : PodLib K) (n k : Nat) (rows : List (List K)) (hn : rows.length = n)
    (a : CritArgs K) (W : WArg K) (o : SvdOpts K) (s : SolverPod K)
    (hs : SolverPod.make (a.orAll n k) none (.name "randomized") W none o = .ok s) (Z : Snap K) :
    ∃ o', (lib.ext s.label s.opts (s.kept (.mat k rows))).engine none Z = lib.engine .randomized o' Z ∧
      optOf o' "n_components" = some (.int (min n k)) := by
  obtain ⟨p, l1, w1, c, hp, g1, g2, g3, e1, e2, e3, e4, rfl⟩ := make_inv hs
  obtain rfl : l1 = .randomized := Except.ok.inj (g1.symm.trans (C100_solver_labels "").2.2.1)
  refine ⟨_, rfl, ?_⟩
  have := C100_options (.randomized) o
    (SolverPod.kept (SolverPod.withLabel ⟨p, .randomized, o, w1.isSome && decide (SvdLabel.randomized ≠ .snapshots)⟩
      .randomized) (.mat k rows)) none "n_components"
  simp only [if_true] at this
  refine this.trans ?_
  simp [SolverPod.kept, SolverPod.withLabel, Pod.keep, e3, hn]

/-! ### Instances -/

/-- Libraries that know the decomposition of one matrix and the roots of some numbers. -/
def exLib : PodLib Rat where
  sqrt x := if x = 4 then 2 else if x = 1/9 then 1/3 else 1
  sqrtm A := A
  choSolve _ v := v
  engine _ o Y := if (optOf o "svdsolver_options").isSome then .error .type
    else if Y = .mat 2 [[0, 3], [2, 0]] then .ok (⟨2, [[1, 0], [0, 1]]⟩, [3, 2], ⟨2, [[0, 1], [1, 0]]⟩)
    else .error .linalg

/-- No criterion. -/
def noCrit : CritArgs Rat := ⟨none, none, none, none, none⟩

example : podBasis exLib (.mat 2 [[0, 3], [2, 0]]) noCrit none (.name "dense") .none true []
    = .ok (⟨2, [[1, 0], [0, 1]]⟩, [1, 2/3], some ⟨2, [[0, 1], [1, 0]]⟩) := by decide +kernel
example : podBasis exLib (.mat 2 [[0, 3], [2, 0]]) { noCrit with num := some 1 } none (.name "dense") .none true []
    = .ok (⟨2, [[1, 0]]⟩, [1, 2/3], some ⟨2, [[0, 1]]⟩) := by decide +kernel
example : podBasis exLib (.mat 2 [[0, 3/2], [6, 0]]) { noCrit with num := some 1 } none (.callable "svd")
    (.one [4, 1/9]) false [] = .ok (⟨2, [[1/2, 0]]⟩, [1, 2/3], none) := by decide +kernel
example : podBasis exLib (.mat 2 [[0, 3], [2, 0]]) noCrit none (.name "dence") .none true []
    = .error .attribute := by decide +kernel
example : podBasis exLib (.mat 2 [[0, 3], [2, 0]]) noCrit none (.name "dense") .none true
    [("svdsolver_options", .dict ["lapack_driver"])] = .error .type := by decide +kernel

/-- The contract of the solver is satisfied by the libraries of the examples. -/
theorem exLib_thin (l : SvdLabel) (o : SvdOpts Rat) (Z : Snap Rat) (L : Cols Rat) (vals : List Rat) (R : Cols Rat)
    (h : exLib.engine l o Z = .ok (L, vals, R)) : IsThinSvd 2 (columnsOf Z) L vals R ∧ vals.length = 2 := by
  simp only [exLib] at h
  split at h
  · cases h
  split at h
  · rename_i hZ
    subst hZ
    simp only [Except.ok.injEq, Prod.mk.injEq] at h
    obtain ⟨rfl, rfl, rfl⟩ := h
    refine ⟨⟨rfl, by simp [Cols.WF], rfl, by simp [Cols.WF], rfl, rfl, (orthonormal_iff _ _).2 (by decide +kernel),
      (orthonormal_iff _ _).2 (by decide +kernel), by decide +kernel, by decide +kernel, ?_⟩, rfl⟩
    intro j hj
    have : j = 0 ∨ j = 1 := by
      have : j < 2 := hj
      omega
    rcases this with rfl | rfl <;> decide +kernel
  · cases h

example : (Snap.mat 2 [[0, 3/2], [6, 0]] : Snap Rat).Shaped 2 (some 2) ∧
    (∀ m, RootOf (exLib.ext (.custom "svd") [] m) 2 (some (.diag [4, 1/9]))) ∧
    ({ noCrit with num := some 1 } : CritArgs Rat).sane :=
  ⟨⟨by simp [Snap.WF], rfl, rfl⟩, fun _ => ⟨rfl,
    (by decide +kernel : ∀ a ∈ ([4, 1/9] : List Rat), exLib.sqrt a * exLib.sqrt a = a)⟩, by intro v hv; cases hv; decide⟩

/-- **C100** (the defect, concretely): with weights, a basis for the method of snapshots whose solver is changed to
the dense one cannot be fitted, while the basis constructed for the dense solver can. -/
theorem C100_change_solver_witness :
    ∃ s t : SolverPod Rat,
      SolverPod.make { noCrit with num := some 1 } none (.name "eigh") (.one [4, 1/9]) none [] = .ok s ∧
      SolverPod.make { noCrit with num := some 1 } none (.name "dense") (.one [4, 1/9]) none [] = .ok t ∧
      (s.setSolver (.name "dense")).2 = .ok () ∧
      ((s.setSolver (.name "dense")).1.fit exLib (.mat 2 [[0, 3/2], [6, 0]])).2 = .error .attribute ∧
      (t.fit exLib (.mat 2 [[0, 3/2], [6, 0]])).2 = .ok () := by
  refine ⟨⟨⟨⟨none, none, none, none, some (.diag [4, 1/9])⟩, .num 1, none, true, false, false, none, none, none⟩,
    .snapshots, [], false⟩,
    ⟨⟨⟨none, none, none, none, some (.diag [4, 1/9])⟩, .num 1, none, false, false, false, none, none, none⟩,
    .dense, [], true⟩, ?_, ?_, ?_, ?_, ?_⟩ <;> decide +kernel

end Opinf
