import Verif.Props.ParamOrder
import Verif.Props.Residuals

/-!
# C116 for parametric models

Specification: sums over the training samples of all training parameters.
-/

namespace Opinf

open List

variable {K S : Type}

section

variable [Field K] [LinearOrder K] [IsStrictOrderedRing K]

/-- A successful training of a parametric model without interpolated operators. -/
structure ParamTraining (lib : ItpLib K) (I : SolverI K S) (M M' : PModel K S) (T : List (ParamData K)) (r m : Nat) :
    Prop where
  learns : M.intrusive = false
  plain : M.Plain
  args : M.Takes lib T r m
  learnable : ∀ s ∈ M.slots, s.infer = true → s.op.Learnable lib (T.map ParamData.mu)
  fit : M.fitOn lib I T = (M', .ok ())

/-- The training samples `((mu, q, u), z)`. -/
def PModel.pointsOf (M : PModel K S) (T : List (ParamData K)) : List ((Par K × List K × Option (List K)) × List K) :=
  T.flatMap (ParamData.points M.hasInputs)

/-- What a training found: a matrix `O` such that the trained model is `O` times the data vector plus the known
operators at all samples, and whose residuals are orthogonal to all other outputs, up to the penalty `B`. -/
structure ParamFitted (lib : ItpLib K) (M M' : PModel K S) (T : List (ParamData K)) (r m : Nat)
    (B : List K → List K → K) (O : Mat K) (y : Par K × List K × Option (List K) → List K) : Prop where
  wf : O.WF
  nrows : O.nrows = r
  ncols : O.ncols = M.learnWidth T.length r m
  lengths : ∀ x ∈ M.pointsOf T, (y x.1).length = r ∧ (vsub x.2 (y x.1)).length = r ∧
    (M.learnVector x.1).length = M.learnWidth T.length r m
  rhs : ∀ x ∈ M.pointsOf T, (M'.rhs lib x.1.1 x.1.2.1 x.1.2.2).2 = .ok (y x.1)
  value : ∀ x ∈ M.pointsOf T, y x.1 = vadd (matVec O.rows (M.learnVector x.1)) (M.knownAt lib r x.1)
  orthogonal : ∀ H : Mat K, H.WF → H.nrows = r → H.ncols = M.learnWidth T.length r m →
    ((M.pointsOf T).map fun x => dot (vsub x.2 (y x.1)) (matVec H.rows (M.learnVector x.1))).sum =
      (zipWith B O.rows H.rows).sum
  some : M.pointsOf T ≠ []
  made : ∃ d, (∀ x ∈ T, x.mu.dim = d) ∧ pExtract lib T.length r m O 0 (M.slots.map (prepSlot d)) = (M'.slots, .ok ())

theorem param_fitted (lib : ItpLib K) (I : SolverI K S) (M M' : PModel K S) (T : List (ParamData K)) (r m : Nat)
    (h : ParamTraining lib I M M' T r m) (hI : I.Shaped r) (hempty : ∀ s D, (I.fit s D []).2 ≠ .ok ())
    (B : List K → List K → K) (hB : ∀ n, Pairing n B)
    (hmin : ∀ s D O Z, M.solver = some s → Z ≠ [] → I.solve (I.fit s D Z).1 = .ok O → (I.fit s D Z).2 = .ok () → D.WF →
      (lhsMat Z).WF → (lhsMat Z).ncols = D.nrows → O.nrows = (lhsMat Z).nrows → O.ncols = D.ncols →
      MinimalFor (fun a => B a a) D Z O) :
    ∃ O y, ParamFitted lib M M' T r m B O y := by
  obtain ⟨s, D, O, Z, d, a1, a2, a3, a4, a5, a6, a7, a8, a9, a10, a11, a12, a13, a14, a15, a16, a17, a18, a19⟩ :=
    fitOn_facts lib I M M' T r m h.learns h.args h.plain h.learnable hI hempty h.fit
  rw [learnWidth_prep] at a16
  rw [← PModel.pointsOf] at a14 a15 a19
  obtain ⟨n, hn⟩ : ∃ n, n = M.learnWidth T.length r m := ⟨_, rfl⟩
  rw [← hn] at a16
  have hOn : O.ncols = n := by rw [a11, a16]
  have hPl : O.rows.length = r := by rw [a8.1, a9]
  have hPr : ∀ a ∈ O.rows, a.length = n := fun a ha => by rw [a8.2 a ha, hOn]
  have hzl : ∀ x ∈ M.pointsOf T, (vsub x.2 (M.knownAt lib r x.1)).length = r := fun x hx =>
    a12 _ (by rw [a15]; exact mem_map.2 ⟨x, hx, rfl⟩)
  have hdl : ∀ x ∈ M.pointsOf T, (M.learnVector x.1).length = n := fun x hx => by
    rw [a5.2 _ (by rw [a14]; exact mem_map.2 ⟨x, hx, rfl⟩), a16]
  have hgap : ∀ x : (Par K × List K × Option (List K)) × List K,
      vsub x.2 (vadd (matVec O.rows (M.learnVector x.1)) (M.knownAt lib r x.1)) =
        vsub (vsub x.2 (M.knownAt lib r x.1)) (matVec O.rows (M.learnVector x.1)) := fun x =>
    (vsub_vsub_eq _ _ _).symm
  -- the samples of the regression problem
  obtain ⟨xs, hxs⟩ : ∃ xs : List (TrainSample K), xs = (M.pointsOf T).map
      fun x => ⟨M.learnVector x.1, vsub x.2 (M.knownAt lib r x.1), none⟩ := ⟨_, rfl⟩
  have hcost : ∀ R : List (List K), R.length = r → ∀ c, matCost (fun a => B a a) xs (fun _ => replicate r 0) [.lin] R =
      rowLoss D (lhsMat Z) ⟨r, c, R⟩ + (R.map fun a => B a a).sum := by
    intro R hR c
    rw [rowLoss, lhsMat_of r Z a12 a2, matCost, hxs]
    congr 1
    have := residual_swap r Z.length D ⟨r, c, R⟩ Z a12 rfl a13.symm hR
    simp only at this ⊢
    rw [this]
    congr 1
    apply ext_getElem (by simp [a15])
    intro j h1 h2
    have hj : j < (M.pointsOf T).length := by simpa using h1
    have hjz : j < Z.length := by rw [a15, length_map]; exact hj
    have hjd : j < D.rows.length := by rw [← a13]; exact hjz
    simp only [getElem_map, getElem_range]
    rw [Opinf.getD_eq_getElem _ _ hjz, Opinf.getD_eq_getElem _ _ hjd]
    simp only [a14, a15, getElem_map, dataVector, flatMap_cons, flatMap_nil, append_nil, OpKind.dataCol]
    rw [vadd_zeros_right _ _ (by rw [length_matVec, hR])]
  have key := (minimal_iff (hB n) xs (fun _ => replicate r 0) [.lin] (by
      rw [hxs]
      intro x hx
      obtain ⟨y, hy, rfl⟩ := mem_map.1 hx
      exact hzl y hy) (by simp) O.rows hPl hPr).1 (by
      intro R hR hRr
      have := hmin s D O Z a1 a2 a3 a4 a5 a6 a7 a10 a11 ⟨r, n, R⟩ ⟨hR, hRr⟩ a9.symm hOn.symm
      rw [hcost R hR n, hcost O.rows hPl n, show (⟨r, n, O.rows⟩ : Mat K) = O by
        cases O; simp only at a9 hOn; rw [a9, hOn]]
      exact this)
  refine ⟨O, fun y => vadd (matVec O.rows (M.learnVector y)) (M.knownAt lib r y), a8, a9, hOn.trans hn,
    fun x hx => ⟨?_, ?_, (hdl x hx).trans hn⟩, a19, fun _ _ => rfl, fun H hH h1 h2 => ?_,
    fun h0 => a2 (by rw [a15, h0]; rfl), ⟨d, a17, a18⟩⟩
  · have := hzl x hx
    rw [length_vsub] at this
    have h2 : (M.knownAt lib r x.1).length ≤ r := by
      rw [PModel.knownAt]
      generalize (M.known.map fun o => o.val lib x.1.1 x.1.2.1 x.1.2.2) = L
      have : ∀ (L : List (List K)) (acc : List K), acc.length ≤ r → (L.foldl vadd acc).length ≤ r := by
        intro L
        induction L with
        | nil => exact fun acc h => h
        | cons a L ih =>
          intro acc h
          exact ih _ (by rw [length_vadd]; omega)
      exact this L _ (by simp)
    rw [length_vadd, length_matVec, hPl]
    omega
  · rw [hgap, length_vsub, hzl x hx, length_matVec, hPl, min_self]
  · rw [← key H.rows (by rw [hH.1, h1]) (fun a ha => by rw [hH.2 a ha, h2, hn]), hxs, map_map]
    refine congrArg List.sum (map_congr_left fun x hx => ?_)
    simp only [Function.comp_apply, residualAt, dataVector, flatMap_cons, flatMap_nil, append_nil, OpKind.dataCol]
    rw [hgap, vadd_zeros_right _ _ (by rw [length_matVec, hPl])]

/-! ### Property theorems -/

/-- **C116** (parametric models, `L2Solver`). After training with regularizer `λ`, the residuals at the samples of all
training parameters satisfy `Σ ⟨residual, H d⟩ = λ² ⟨O, H⟩` for all `H`. -/
theorem C116_parametric_l2 (lib : ItpLib K) (svd : Mat K → Except Err (Svd K)) (hsvd : ∀ D u, svd D = .ok u → IsSVD D u)
    (M M' : PModel K (L2 K K)) (T : List (ParamData K)) (r m : Nat) (h : ParamTraining lib (l2Solver svd) M M' T r m)
    (lam : K) (hlam : ∀ s ∈ M.solver, s.reg = some lam) :
    ∃ O y, ParamFitted lib M M' T r m (fun a b => lam ^ 2 * dot a b) O y := by
  refine param_fitted lib _ M M' T r m h
    (l2Solver_shaped svd (fun D u h => ⟨(hsvd D u h).psiWF, (hsvd D u h).psiCols⟩) r)
    (fun s D => by simp [l2Solver]) _ (fun n => pairing_dot n lam) ?_
  intro s D O Z c1 hne c3 c7 c8 hZwf hk c11 c12 O' hO' hr hc
  obtain ⟨lam', hlam', hmin⟩ := l2Solver_optimal svd hsvd s D O Z hne c3 c7 c8 hZwf hk c11 c12
  rw [hlam s (by rw [c1]; rfl)] at hlam'
  cases hlam'
  have := hmin O' hO' hr hc
  simp only [← sumSq_eq_dot]
  rwa [sum_map_mul_left, sum_map_mul_left]

/-- **C116** (parametric models, `PlainSolver`). Without regularization the residuals are orthogonal to all outputs. -/
theorem C116_parametric_plain (lib : ItpLib K) (lstsq : Mat K → Mat K → Except Err (Mat K))
    (hls : ∀ A B X, lstsq A B = .ok X → IsLstsq A B X) (M M' : PModel K (Plain K)) (T : List (ParamData K)) (r m : Nat)
    (h : ParamTraining lib (plainSolver lstsq) M M' T r m) :
    ∃ O y, ParamFitted lib M M' T r m (fun _ _ => 0) O y := by
  refine param_fitted lib _ M M' T r m h
    (plainSolver_shaped lstsq (fun A B X h => ⟨(hls A B X h).wf, (hls A B X h).rows, (hls A B X h).cols⟩) r)
    (fun s D => by simp [plainSolver]) _ (fun n => pairing_zero n) ?_
  intro s D O Z c1 hne c3 c7 c8 hZwf hk c11 c12 O' hO' hr hc
  have := plainSolver_optimal lstsq hls s D O Z hne c3 hZwf hk c11 c12 O' hO' hr hc
  simpa using this

/-- **C116** (parametric models, `TikhonovSolver`). With regularization matrix `G` the residuals satisfy
`Σ ⟨residual, H d⟩ = Σ ⟨G oᵢ, G hᵢ⟩`. -/
theorem C116_parametric_tikhonov (lib : ItpLib K) (lstsq posSolve : Mat K → Mat K → Except Err (Mat K))
    (hls : ∀ A B X, lstsq A B = .ok X → IsLstsq A B X)
    (hps : ∀ A B X, A.nrows = B.nrows → A.nrows = A.ncols → posSolve A B = .ok X → IsSolution A B X)
    (M M' : PModel K (Tik (Mat K) K)) (T : List (ParamData K)) (r m : Nat)
    (h : ParamTraining lib (tikSolver lstsq posSolve) M M' T r m) (G : Mat K) (hwf : G.WF)
    (hG : ∀ s ∈ M.solver, s.reg = some G) :
    ∃ O y, ParamFitted lib M M' T r m (fun a b => dot (matVec G.rows a) (matVec G.rows b)) O y := by
  refine param_fitted lib _ M M' T r m h
    (tikSolver_shaped lstsq posSolve
      (fun A B X h => ⟨(hls A B X h).wf, (hls A B X h).rows, (hls A B X h).cols⟩)
      (fun A B X e q h => ⟨(hps A B X e q h).wf, (hps A B X e q h).rows.trans q.symm, (hps A B X e q h).cols⟩) r)
    (fun s D => by simp [tikSolver]) _ (fun n => pairing_matVec n G.rows) ?_
  intro s D O Z c1 hne c3 c7 c8 hZwf hk c11 c12
  have hs := hG s (by rw [c1]; rfl)
  obtain ⟨G', hG', hmin⟩ := tikSolver_optimal lstsq posSolve hls hps s (fun G' h' => by
    rw [hs] at h'; cases h'; exact hwf) D O Z hne c3 c7 c8 hZwf hk c11 c12
  rw [hs] at hG'
  cases hG'
  intro O' hO' hr hc
  simp only [← sumSq_eq_dot]
  exact hmin O' hO' hr hc

/-- **C116** (parametric models, every entry of the data). Without regularization each component of the residual is
orthogonal to each entry of the data vector, for an affine operator to each entry weighted with each coefficient. -/
theorem C116_parametric_moments {lib : ItpLib K} {M M' : PModel K S} {T : List (ParamData K)} {r m : Nat} {O : Mat K}
    {y : Par K × List K × Option (List K) → List K} (h : ParamFitted lib M M' T r m (fun _ _ => 0) O y) {i j : Nat}
    (hi : i < r) (hj : j < M.learnWidth T.length r m) :
    ((M.pointsOf T).map fun x => (vsub x.2 (y x.1)).getD i 0 * (M.learnVector x.1).getD j 0).sum = 0 := by
  have := h.orthogonal (oneEntry r (M.learnWidth T.length r m) i j) (oneEntry_wf _ _ _ _) rfl rfl
  rw [show (zipWith (fun _ _ : List K => (0 : K)) O.rows
      (oneEntry r (M.learnWidth T.length r m) i j : Mat K).rows).sum = 0 by
    refine List.sum_eq_zero fun y hy => ?_
    obtain ⟨k, hk, rfl⟩ := getElem_of_mem hy
    simp] at this
  refine Eq.trans ?_ this
  refine congrArg List.sum (map_congr_left fun x hx => ?_)
  obtain ⟨-, h2, h3⟩ := h.lengths x hx
  exact (dot_oneEntry _ _ h3 h2 hi hj).symm

end

/-! ### Example -/

/-- Two training parameters with values that no model fits exactly. -/
def parRes : List (ParamData ℚ) :=
  [⟨.scalar 1, .mat 1 [[1], [2]], .mat 1 [[7], [6]], .scalar 0⟩, ⟨.scalar 4, .mat 1 [[1]], .mat 1 [[8]], .scalar 0⟩]

/-- Least squares restricted to one problem. -/
def parResLs (A B : Mat ℚ) : Except Err (Mat ℚ) :=
  if A = ⟨3, 2, [[1, 1], [2, 2], [1, 4]]⟩ ∧ B = ⟨3, 1, [[4], [3], [5]]⟩ then .ok ⟨2, 1, [[1], [1]]⟩
  else .error .linalg

theorem parResLs_spec (A B X : Mat ℚ) (h : parResLs A B = .ok X) : IsLstsq A B X := by
  unfold parResLs at h
  split at h
  · rename_i hc
    obtain ⟨rfl, rfl⟩ := hc
    injection h with h
    subst h
    refine ⟨by decide, rfl, rfl, ?_⟩
    intro j hj
    obtain rfl : j = 0 := by simp at hj; exact hj
    refine ⟨rfl, fun o' ho => ?_⟩
    obtain ⟨x, y, rfl⟩ : ∃ x y, o' = [x, y] := by
      match o', ho with
      | [x, y], _ => exact ⟨x, y, rfl⟩
    simp only [sumSq, vsub, matVec, dot, col, map_cons, map_nil, zipWith_cons_cons, zipWith_nil_right, sum_cons, sum_nil,
      getD_cons_zero, zipWith_nil_left]
    have := add_nonneg (sq_nonneg (x + y - 2)) (sq_nonneg (x + 4 * y - 5))
    nlinarith
  · cases h

theorem parRes_done : ParamTraining toyLib (plainSolver parResLs) pOptEx
    (pOptEx.fitOn toyLib (plainSolver parResLs) parRes).1 parRes 1 0 := by
  have hfin : ∀ x : PModel ℚ (Plain ℚ) × Except Err Unit, x.2 = .ok () → x = (x.1, .ok ()) := by
    rintro ⟨a, b⟩ rfl
    rfl
  refine ⟨rfl, ?_, ⟨by simp [parRes], by simp [pOptEx], ?_, ?_, ?_, by decide, ?_, ?_, by simp, ?_, ?_⟩,
    ?_, hfin _ (by decide +kernel)⟩
  · intro o ho
    simp only [PModel.ops, pOptEx, map_cons, map_nil, mem_cons, not_mem_nil, or_false] at ho
    rcases ho with rfl | rfl <;> rfl
  · intro a ha
    simp only [parRes, map_cons, map_nil, mem_cons, not_mem_nil, or_false] at ha
    rcases ha with rfl | rfl <;> simp [Arg.WF, atleast2d]
  · intro a ha
    simp only [parRes, map_cons, map_nil, mem_cons, not_mem_nil, or_false] at ha
    rcases ha with rfl | rfl <;> simp [Arg.WF, atleast2d]
  · intro us hus
    simp [pOptEx] at hus
  · intro a ha
    simp only [parRes, map_cons, map_nil, mem_cons, not_mem_nil, or_false] at ha
    rcases ha with rfl | rfl <;> rfl
  · intro hi
    simp [pOptEx] at hi
  · intro o ho
    simp only [PModel.ops, pOptEx, map_cons, map_nil, mem_cons, not_mem_nil, or_false] at ho
    rcases ho with rfl | rfl <;> simp [POp.kind, OpKind.hasInputs]
  · intro s hs hi mu _
    simp only [pOptEx, mem_cons, not_mem_nil, or_false] at hs
    rcases hs with rfl | rfl
    · simp at hi
    · exact ⟨⟨.const, some ⟨1, 1, [[3]]⟩⟩, rfl, rfl, _, rfl, ⟨rfl, by decide⟩, rfl, rfl⟩
  · intro s hs hi
    simp only [pOptEx, mem_cons, not_mem_nil, or_false] at hs
    rcases hs with rfl | rfl
    · exact ⟨by decide, fun mu hmu => ⟨_, rfl, by
        simp only [parRes, map_cons, map_nil, mem_cons, not_mem_nil, or_false] at hmu
        rcases hmu with rfl | rfl <;> rfl⟩⟩
    · simp at hi

-- the hypotheses of `C116_parametric_plain` and `C116_parametric_moments` hold for data that do not fit exactly
example : ∃ O y, ParamFitted toyLib pOptEx (pOptEx.fitOn toyLib (plainSolver parResLs) parRes).1 parRes 1 0 (fun _ _ => 0) O y ∧
    ((pOptEx.pointsOf parRes).map fun x => (vsub x.2 (y x.1)).getD 0 0 * (pOptEx.learnVector x.1).getD 1 0).sum = 0 := by
  obtain ⟨O, y, h⟩ := C116_parametric_plain toyLib parResLs parResLs_spec _ _ _ _ _ parRes_done
  exact ⟨O, y, h, C116_parametric_moments h (by decide) (by decide +kernel)⟩

-- the outputs of the trained model at the samples, whose values are 7, 6 and 8, and the data vectors
example : ((pOptEx.pointsOf parRes).map fun x =>
      ((pOptEx.fitOn toyLib (plainSolver parResLs) parRes).1.rhs toyLib x.1.1 x.1.2.1 x.1.2.2).2) =
      [.ok [5], .ok [7], .ok [8]] ∧
    (pOptEx.pointsOf parRes).map (fun x => pOptEx.learnVector x.1) = [[1, 1], [2, 2], [1, 4]] := by
  refine ⟨?_, ?_⟩ <;> decide +kernel

end Opinf
