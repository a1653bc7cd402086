import Verif.Lemmas.PodRoot
import Verif.Props.PodHistory

/-!
# C74: a POD basis is orthonormal and approximates the training states best, and its residual energy is the error

The singular value decomposition is the only thing taken on trust: `IsThinSvd` says what it returns. `approxError` is the
sum of the squared errors, in the norm with weights, if every training state is approximated by a combination of given
vectors; the theorems compare the projection onto the basis with all such approximations.
-/

namespace Opinf

open List

variable {K : Type} [Field K] [LinearOrder K] [IsStrictOrderedRing K]

/-- Sum of the squared lengths of all columns, in the norm with weights. -/
def totalEnergy (W : Option (Weights K)) (Y : Snap K) : K := ((range Y.width).map fun j => wnorm2 W (Y.column j)).sum

/-- Sum of the squared distances between the columns of two arrays. -/
def squaredDistance (W : Option (Weights K)) (Y P : Snap K) : K :=
  ((range Y.width).map fun j => wnorm2 W (vsub (Y.column j) (P.column j))).sum

/-- The entries are orthonormal in the inner product with weights, and no other vectors of the same number, combined with
whatever coefficients, approximate the states `Y` better than their projection `P` onto the basis. -/
structure BestBasis (b : LinB K) (Y P : Snap K) (V : Cols K) : Prop where
  has : b.Has V
  dim : b.r = some (V.cols.length : Int)
  orth : Orthonormal V b.weights
  project : linI.project b Y = .ok P
  best : ∀ us cs : List (List K), (∀ u ∈ us, u.length = V.n) → us.length ≤ V.cols.length → cs.length = Y.width →
    (∀ c ∈ cs, c.length = us.length) → squaredDistance b.weights Y P ≤ approxError b.weights V.n us cs (columnsOf Y)

omit [LinearOrder K] [IsStrictOrderedRing K] in
theorem zip_map_self {α β : Type} (f : α → β) (g : α → β → K) (l : List α) :
    (zipWith g l (l.map f)) = l.map fun q => g q (f q) := by
  induction l with
  | nil => rfl
  | cons a l ih => simp [ih]

/-- The state of a basis with known singular vectors. -/
theorem pod_state (s : Pod K) (hs : s.Consistent) (d : SvdData K) (hd : s.svd = some d) (Y : Snap K) (c : Option Nat)
    (hY : Y.Shaped d.left.n c) (sv lam : List K) (R : List (List K))
    (h : PodCore s.lin.weights d.left.n (columnsOf Y) d.left.cols sv lam R) :
    ∃ V P, BestBasis s.lin Y P V ∧ V.n = d.left.n ∧ V.cols.length ≤ d.left.cols.length ∧
      squaredDistance s.lin.weights Y P = (lam.drop V.cols.length).sum ∧
      totalEnergy s.lin.weights Y = lam.sum ∧
      s.cum = some (captured d.vals V.cols.length) ∧ s.res = some (1 - captured d.vals V.cols.length) := by
  obtain ⟨r, h1, h2, h3, h4, h5, h6⟩ := hs.trained d hd
  have hl : (d.left.cols.take r).length = r := by simp [h1]
  have hwf : (⟨d.left.n, d.left.cols.take r⟩ : Cols K).WF := fun c hc => h.Llen c (mem_of_mem_take hc)
  have hhas : s.lin.Has ⟨d.left.n, d.left.cols.take r⟩ := ⟨h4, hwf, h.fitW⟩
  obtain ⟨Z, z1, z2, z3⟩ := compress_ok hhas hY
  obtain ⟨P, p1, p2, p3⟩ := decompress_ok hhas z2
  have hw : Z.width = Y.width := Snap.width_of_cols (z2.cols.trans hY.cols.symm)
  have hsd : squaredDistance s.lin.weights Y P = approxError s.lin.weights d.left.n (d.left.cols.take r)
      ((columnsOf Y).map fun q => matVec (d.left.cols.take r) (wvec s.lin.weights q)) (columnsOf Y) := by
    rw [approxError, squaredDistance]
    have : zipWith (fun q c => vsub q (vecMat d.left.n c (d.left.cols.take r))) (columnsOf Y)
        ((columnsOf Y).map fun q => matVec (d.left.cols.take r) (wvec s.lin.weights q)) =
        (range Y.width).map fun j => vsub (Y.column j) (P.column j) := by
      apply ext_getElem (by simp [columnsOf])
      intro j a1 a2
      have hj : j < Y.width := by simpa using a2
      simp only [columnsOf, getElem_zipWith, getElem_map, getElem_range]
      rw [p3 j (by omega), z3 j hj]
      rw [matVec_transpose _ _ _ hwf]
    rw [this, map_map]
    rfl
  have hatt := h.attained r h1
  refine ⟨⟨d.left.n, d.left.cols.take r⟩, P, ⟨hhas, by rw [h2]; simp [hl], ?_, ?_, ?_⟩, rfl, by simp, ?_, ?_, ?_, ?_⟩
  · exact (h.keep r).orthL
  · simp only [BasI.project, linI, z1, bind, Except.bind, p1]
  · intro us cs hu hul hc hcr
    rw [hsd, hatt]
    refine h.lower us cs hu (by rw [hc, columnsOf_length]) hcr r ?_
    change us.length ≤ (d.left.cols.take r).length at hul
    omega
  · rw [hsd, hatt]
    change _ = (lam.drop (d.left.cols.take r).length).sum
    rw [hl]
  · rw [← h.total, totalEnergy, columnsOf, map_map]
    rfl
  · change _ = some (captured d.vals (d.left.cols.take r).length)
    rw [hl, h5]
  · change _ = some (1 - captured d.vals (d.left.cols.take r).length)
    rw [hl, h6]

/-- Calls that change the dimension only. -/
def PodCall.dimensionOnly : PodCall K → Prop
  | .fit _ => False
  | _ => True

omit [IsStrictOrderedRing K] in
theorem dimension_call (ext : PodExt K) (s : Pod K) (o : PodCall K) (ho : o.dimensionOnly) :
    (o.run ext s).svd = s.svd ∧ (o.run ext s).lin.weights = s.lin.weights := by
  have hset : ∀ (t : Pod K) (r : Int), (t.setR r).1.svd = t.svd ∧ (t.setR r).1.lin.weights = t.lin.weights := by
    intro t r
    refine ⟨setR_svd t r, ?_⟩
    unfold Pod.setR
    cases t.svd <;> rfl
  cases o with
  | fit Y => exact ho.elim
  | setR r => exact hset s r
  | setDimension a =>
    simp only [PodCall.run, Pod.setDimension]
    cases a.pick with
    | error e => exact ⟨rfl, rfl⟩
    | ok c =>
      dsimp only
      split
      · exact ⟨rfl, rfl⟩
      · simp only [Pod.setFromCrit]
        cases hd : s.svd with
        | none => exact ⟨rfl, rfl⟩
        | some d =>
          dsimp only
          exact ⟨(hset _ _).1, (hset _ _).2⟩

theorem dimension_calls (ext : PodExt K) (os : List (PodCall K)) (hos : ∀ o ∈ os, o.dimensionOnly ∧ o.sane) (s : Pod K)
    (hs : s.Consistent) (hc : s.crit.sane) :
    (os.foldl (PodCall.run ext) s).Consistent ∧ (os.foldl (PodCall.run ext) s).svd = s.svd ∧
      (os.foldl (PodCall.run ext) s).lin.weights = s.lin.weights := by
  induction os generalizing s with
  | nil => exact ⟨hs, rfl, rfl⟩
  | cons o os ih =>
    obtain ⟨h1, h2⟩ := hos o (by simp)
    obtain ⟨c1, c2⟩ := call_consistent ext s hs hc o h2
    obtain ⟨d1, d2⟩ := dimension_call ext s o h1
    obtain ⟨e1, e2, e3⟩ := ih (fun o ho => hos o (by simp [ho])) _ c1 c2
    rw [foldl_cons]
    exact ⟨e1, e2.trans d1, e3.trans d2⟩

omit [IsStrictOrderedRing K] in
/-- What `fit` did when it succeeded. -/
theorem pod_fit_inv (ext : PodExt K) (s : Pod K) (k : Nat) (rows : List (List K)) (s' : Pod K)
    (h : s.fit ext (.mat k rows) = (s', .ok ())) :
    ∃ Z L vals R V w, s.weighted ext (.mat k rows) = .ok Z ∧
      ext.engine (if s.mos then s.lin.weights else none) Z = .ok (L, vals, R) ∧ s.unweighted ext L = .ok V ∧
      normalizeVals vals = .ok w ∧
      s'.svd = some ⟨⟨V.n, V.cols.take (s.keep rows.length k)⟩, w,
        some ⟨R.n, R.cols.take (s.keep rows.length k)⟩⟩ ∧ s'.lin.weights = s.lin.weights ∧
      (s.crit.sane → s'.Consistent ∧ s'.crit.sane) := by
  simp only [Pod.fit, Pod.decompose, bind, Except.bind] at h
  cases hZ : s.weighted ext (.mat k rows) with
  | error e => simp [hZ] at h
  | ok Z =>
    simp only [hZ] at h
    cases hE : ext.engine (if s.mos then s.lin.weights else none) Z with
    | error e => simp [hE] at h
    | ok d =>
      obtain ⟨L, vals, R⟩ := d
      simp only [hE] at h
      cases hV : s.unweighted ext L with
      | error e => simp [hV] at h
      | ok V =>
        simp only [hV, pure, Except.pure, Pod.storeSvd] at h
        cases hw : normalizeVals vals with
        | error e => simp [hw] at h
        | ok w =>
          simp only [hw, Pod.setFromCrit] at h
          have e1 := congrArg Prod.fst h
          simp only at e1
          subst e1
          refine ⟨Z, L, vals, R, V, w, rfl, hE, hV, hw, ?_, ?_, ?_⟩
          · rw [setR_svd]
          · simp [Pod.setR, LinB.init]
          · intro hc
            exact ⟨setR_consistent _ (Or.inr rfl) _ (Or.inl (Crit.dim_nonneg _ _ hc _)),
              setR_crit _ _ (Crit.dim_nonneg _ _ hc _) hc⟩

/-- Descending singular values are only divided by the largest one, so the captured energy does not change. -/
theorem captured_normalized (vals w : List K) (hd : vals.Pairwise (· ≥ ·)) (h : normalizeVals vals = .ok w) (r : Nat) :
    captured w r = captured vals r ∧ (vals.map fun a => a * a).sum ≠ 0 := by
  have hs : vals.insertionSort (· ≥ ·) = vals := hd.insertionSort_eq
  simp only [normalizeVals, hs] at h
  cases vals with
  | nil => simp at h
  | cons a rest =>
    simp only at h
    split at h
    · cases h
    · rename_i ha
      simp only [Except.ok.injEq] at h
      have hpos : 0 < (map (fun a => a * a) (a :: rest)).sum := by
        rw [map_cons, sum_cons]
        have h1 : 0 < a * a := mul_self_pos.mpr ha
        have h2 : 0 ≤ (rest.map fun a => a * a).sum := sum_nonneg fun x hx => by
          rw [mem_map] at hx
          obtain ⟨b, -, rfl⟩ := hx
          exact mul_self_nonneg b
        linarith
      refine ⟨?_, hpos.ne'⟩
      generalize a :: rest = l at h hpos
      subst h
      have key : ∀ m : List K, (map (fun s => s * s) (map (fun x => x / a) m)).sum = (map (fun s => s * s) m).sum / (a * a) := by
        intro m
        induction m with
        | nil => simp
        | cons b m ih =>
          simp only [map_cons, sum_cons] at ih ⊢
          rw [ih]
          field_simp
      simp only [captured, ← map_take, key]
      have : a * a ≠ 0 := mul_self_ne_zero.mpr ha
      field_simp

/-- The energy that is left. -/
theorem residual_energy (vals : List K) (h0 : (vals.map fun a => a * a).sum ≠ 0) (r : Nat) :
    (1 - captured vals r) * (vals.map fun a => a * a).sum = ((vals.map fun a => a * a).drop r).sum := by
  have e : (vals.map fun a => a * a).sum = ((vals.map fun a => a * a).take r).sum + ((vals.map fun a => a * a).drop r).sum := by
    rw [← sum_append, take_append_drop]
  rw [captured, sub_mul, one_mul, div_mul_cancel₀ _ h0, map_take]
  linear_combination e

/-- C74: after a successful `fit` with the dense solver and any number of changes of the dimension, the entries are
orthonormal in the inner product with the weights, the training states are approximated as well as any basis of that
dimension can, and `residual_energy` is the squared error of the projection divided by the squared norm of the training
states. -/
theorem C74_best_basis (ext : PodExt K) (s : Pod K) (hm : s.mos = false) (hc : s.crit.sane) (n k : Nat)
    (rows : List (List K)) (hY : (Snap.mat k rows).Shaped n (some k)) (hroot : RootOf ext n s.lin.weights)
    (hsvd : ∀ Z L vals R, Z.Shaped n (some k) → ext.engine none Z = .ok (L, vals, R) →
      IsThinSvd n (columnsOf Z) L vals R)
    (s' : Pod K) (hfit : s.fit ext (.mat k rows) = (s', .ok ())) (os : List (PodCall K))
    (hos : ∀ o ∈ os, o.dimensionOnly ∧ o.sane) :
    ∃ V P rho, BestBasis (os.foldl (PodCall.run ext) s').lin (.mat k rows) P V ∧ V.n = n ∧
      (os.foldl (PodCall.run ext) s').lin.weights = s.lin.weights ∧
      (os.foldl (PodCall.run ext) s').res = some rho ∧ (os.foldl (PodCall.run ext) s').cum = some (1 - rho) ∧
      totalEnergy s.lin.weights (.mat k rows) ≠ 0 ∧
      rho * totalEnergy s.lin.weights (.mat k rows) = squaredDistance s.lin.weights (.mat k rows) P := by
  obtain ⟨Z, L, vals, R, V, w, e1, e2, e3, e4, e5, e6, e7⟩ := pod_fit_inv ext s k rows s' hfit
  obtain ⟨c1, c2⟩ := e7 hc
  rw [hm] at e2
  have hZ := (weighted_root s hm hroot _ Z _ hY e1).1
  have hthin := hsvd Z L vals R hZ e2
  have hcore := (podCore_svd s hm hroot _ Z _ hY e1 L vals R V hthin e3).keep (s.keep rows.length k)
  have hLn : ∀ c ∈ L.cols, c.length = n := fun c hc => by rw [hthin.leftWF c hc, hthin.leftN]
  have hVn : V.n = n := by rw [(unweighted_root s hm hroot L V hLn e3).1, hthin.leftN]
  obtain ⟨f1, f2, f3⟩ := dimension_calls ext os hos s' c1 c2
  obtain ⟨V', P, g1, g2, g3, g4, g5, g6, g7⟩ := pod_state _ f1 _ (f2.trans e5) (.mat k rows) (some k)
    (by rw [hVn]; exact hY) vals _ R.cols (by rw [hVn, f3, e6]; exact hcore)
  have hcap := captured_normalized vals w hthin.desc e4 V'.cols.length
  rw [hcap.1] at g6 g7
  rw [f3, e6] at g4 g5
  refine ⟨V', P, _, g1, by rw [g2, hVn], f3.trans e6, g7, by rw [g6]; congr 1; ring, ?_, ?_⟩
  · rw [g5]; exact hcap.2
  · rw [g5, g4]
    exact residual_energy vals hcap.2 _

/-- C74: the states of a wrong dimension are refused when there are weights, and a single snapshot always. -/
theorem C74_refused (ext : PodExt K) (s : Pod K) (hm : s.mos = false) (k : Nat) (rows : List (List K)) :
    (∀ xs, s.fit ext (.vec xs) = (s, .error .index)) ∧
    (∀ w, s.lin.weights = some (.diag w) → rows.length ≠ w.length →
      s.fit ext (.mat k rows) = (s, .error .dimensionality)) ∧
    (∀ A, s.lin.weights = some (.full A) → rows.length ≠ A.nrows →
      s.fit ext (.mat k rows) = (s, .error .dimensionality)) := by
  refine ⟨fun xs => rfl, ?_, ?_⟩
  · intro w hw h
    simp [Pod.fit, Pod.decompose, Pod.weighted, hm, hw, Snap.len, h, bind, Except.bind]
  · intro w hw h
    simp [Pod.fit, Pod.decompose, Pod.weighted, hm, hw, Snap.len, h, bind, Except.bind]

/-! ### An example: two snapshots, weights 4 and 1/9 -/

/-- Libraries that know the decomposition of one matrix and the roots of some numbers. -/
def exWeightedExt : PodExt ℚ where
  sqrt x := if x = 4 then 2 else if x = 1/9 then 1/3 else 1
  sqrtm A := A
  choSolve _ v := v
  engine _ Y := if Y = .mat 2 [[0, 3], [2, 0]]
    then .ok (⟨2, [[1, 0], [0, 1]]⟩, [3, 2], ⟨2, [[0, 1], [1, 0]]⟩)
    else .error .linalg

/-- A basis of one vector, to be fitted. -/
def exWeightedPod : Pod ℚ :=
  ⟨⟨none, none, none, none, some (.diag [4, 1/9])⟩, .num 1, none, false, false, false, none, none, none⟩

example : (Snap.mat 2 [[0, 3/2], [6, 0]] : Snap ℚ).Shaped 2 (some 2) ∧ RootOf exWeightedExt 2 exWeightedPod.lin.weights ∧
    (exWeightedPod.fit exWeightedExt (.mat 2 [[0, 3/2], [6, 0]])).2 = .ok () ∧
    (exWeightedPod.fit exWeightedExt (.mat 2 [[0, 3/2], [6, 0]])).1.lin.entries = some ⟨2, [[1/2, 0]]⟩ ∧
    (exWeightedPod.fit exWeightedExt (.mat 2 [[0, 3/2], [6, 0]])).1.res = some (4/13) ∧
    totalEnergy (some (.diag [4, 1/9])) (.mat 2 [[0, 3/2], [6, 0]] : Snap ℚ) = 13 ∧
    linI.project (exWeightedPod.fit exWeightedExt (.mat 2 [[0, 3/2], [6, 0]])).1.lin (.mat 2 [[0, 3/2], [6, 0]]) =
      .ok (.mat 2 [[0, 3/2], [0, 0]]) ∧
    squaredDistance (some (.diag [4, 1/9])) (.mat 2 [[0, 3/2], [6, 0]] : Snap ℚ) (.mat 2 [[0, 3/2], [0, 0]]) = 4 := by
  refine ⟨⟨by simp [Snap.WF], rfl, rfl⟩, ⟨rfl, by decide +kernel⟩, ?_, ?_, ?_, ?_, ?_, ?_⟩ <;> decide +kernel

example : ∀ (Z : Snap ℚ) L vals R, Z.Shaped 2 (some 2) → exWeightedExt.engine none Z = .ok (L, vals, R) →
    IsThinSvd 2 (columnsOf Z) L vals R := by
  intro Z L vals R _ h
  simp only [exWeightedExt] at h
  split at h
  · rename_i hZ
    subst hZ
    simp only [Except.ok.injEq, Prod.mk.injEq] at h
    obtain ⟨rfl, rfl, rfl⟩ := h
    refine ⟨rfl, by simp [Cols.WF], rfl, by simp [Cols.WF], rfl, rfl, (orthonormal_iff _ _).2 (by decide +kernel),
      (orthonormal_iff _ _).2 (by decide +kernel), by decide +kernel, by decide +kernel, ?_⟩
    intro j hj
    have : j = 0 ∨ j = 1 := by
      have : j < 2 := hj
      omega
    rcases this with rfl | rfl <;> decide +kernel
  · cases h

end Opinf
