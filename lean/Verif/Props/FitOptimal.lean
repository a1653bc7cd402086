import Verif.Model.SolverAdapt
import Verif.Props.Fit
import Verif.Props.LstsqTik
import Verif.Props.LstsqTsvd

/-!
# C62: models trained with the built-in solvers are optimal; C60 for the built-in solvers
-/

namespace Opinf

open List

variable {K : Type}

/-! ### The regression residual, seen from the rows and from the snapshots -/

theorem sumSq_range [CommRing K] (n : Nat) (v : List K) (hv : v.length = n) :
    sumSq v = ∑ i ∈ Finset.range n, v.getD i 0 ^ 2 := by
  subst hv
  rw [← sum_range_list, sumSq]
  conv_lhs => rw [← map_range_getD v]
  rw [map_map]
  rfl

theorem lhsMat_of [Zero K] (r : Nat) (Z : List (List K)) (hZ : ∀ z ∈ Z, z.length = r) (h : Z ≠ []) :
    lhsMat Z = ⟨r, Z.length, transpose r Z⟩ := by
  cases Z with
  | nil => exact absurd rfl h
  | cons z Z => simp [lhsMat, hZ z (by simp)]

theorem lhsMat_wf [Zero K] (r : Nat) (Z : List (List K)) (hZ : ∀ z ∈ Z, z.length = r) (h : Z ≠ []) :
    (lhsMat Z).WF := by
  rw [lhsMat_of r Z hZ h]
  exact ⟨by simp [transpose], transpose_rows r Z⟩

/-- `Σ_i ‖D o_i − z_i‖²` over the rows equals `Σ_j ‖z_j − O d_j‖²` over the snapshots. -/
theorem residual_swap [CommRing K] (r k : Nat) (D O : Mat K) (Z : List (List K))
    (hZ : ∀ z ∈ Z, z.length = r) (hZl : Z.length = k) (hD : D.rows.length = k) (hO : O.rows.length = r) :
    (zipWith (fun z o => sumSq (vsub (matVec D.rows o) z)) (transpose r Z) O.rows).sum =
      ((range k).map fun j => sumSq (vsub (Z.getD j []) (matVec O.rows (D.rows.getD j [])))).sum := by
  rw [sum_range_list]
  have h1 : ∀ j ∈ Finset.range k, sumSq (vsub (Z.getD j []) (matVec O.rows (D.rows.getD j []))) =
      ∑ i ∈ Finset.range r,
        ((Z.getD j []).getD i 0 - dot (O.rows.getD i []) (D.rows.getD j [])) ^ 2 := by
    intro j hj
    rw [Finset.mem_range] at hj
    have hz : (Z.getD j []).length = r := by
      rw [getD_eq_getElem _ _ (hZl ▸ hj)]; exact hZ _ (getElem_mem _)
    rw [sumSq_range r _ (by rw [length_vsub, hz, length_matVec, hO, min_self])]
    apply Finset.sum_congr rfl
    intro i hi
    rw [Finset.mem_range] at hi
    rw [getD_vsub _ _ (by rw [hz, length_matVec, hO])]
    congr 2
    rw [getD_eq_getElem (matVec _ _) _ (by rw [length_matVec, hO]; exact hi),
      getD_eq_getElem O.rows _ (hO ▸ hi)]
    simp only [matVec, getElem_map]
  rw [Finset.sum_congr rfl h1, Finset.sum_comm]
  have h2 : zipWith (fun z o => sumSq (vsub (matVec D.rows o) z)) (transpose r Z) O.rows =
      (range r).map fun i => sumSq (vsub (matVec D.rows (O.rows.getD i []))
        (Z.map fun z => z.getD i 0)) := by
    apply ext_getElem
    · simp [transpose, hO]
    · intro i h1 h2
      have hi : i < O.rows.length := by simp at h2; omega
      rw [getElem_zipWith, getElem_map, getElem_range, getD_eq_getElem _ _ hi]
      simp [transpose]
  rw [h2, sum_range_list]
  apply Finset.sum_congr rfl
  intro i _
  rw [sumSq_range k _ (by simp [hD, hZl])]
  apply Finset.sum_congr rfl
  intro j hj
  rw [Finset.mem_range] at hj
  rw [getD_vsub _ _ (by simp [hD, hZl]), getD_eq_getElem (matVec _ _) _ (by simp [hD, hj]),
    getD_eq_getElem (map _ _) _ (by simp [hZl, hj]), getD_eq_getElem Z _ (hZl ▸ hj),
    getD_eq_getElem D.rows _ (hD ▸ hj)]
  simp only [matVec, getElem_map]
  rw [dot_comm']
  ring

/-! ### Contracts of the built-in solvers -/

/-- `L2Solver` satisfies the shape contract when the singular value decomposition does. -/
theorem l2Solver_shaped [Field K] [DecidableEq K] (svd : Mat K → Except Err (Svd K))
    (hsvd : ∀ D u, svd D = .ok u → u.PsiT.WF ∧ u.PsiT.ncols = D.ncols) (r : Nat) :
    (l2Solver svd).Shaped r := by
  intro s D Z O hZ hfit hO
  have hne : Z ≠ [] := by rintro rfl; simp [l2Solver] at hfit
  have hne' : Z.isEmpty = false := by simpa using hne
  simp only [l2Solver, hne', Bool.false_eq_true, if_false] at hfit hO
  rw [L2.fit] at hfit hO
  cases ht : templateFit (.mat D) (.mat (lhsMat Z)) with
  | error e => rw [ht] at hfit; cases hfit
  | ok x =>
    obtain ⟨D', Z'⟩ := x
    have hx : D' = D ∧ Z' = lhsMat Z := by
      simp only [templateFit] at ht
      split at ht
      · cases ht
      · injection ht with ht; injection ht with h1 h2; exact ⟨h1.symm, h2.symm⟩
    rw [ht] at hfit hO
    simp only at hfit hO
    cases hu : svd D' with
    | error e => rw [hu] at hfit; cases hfit
    | ok u =>
      rw [hu] at hO
      simp only [L2.solve] at hO
      split at hO
      · cases hO
      · split at hO
        · cases hO
        · injection hO with hO
          subst hO
          obtain ⟨w1, w2⟩ := hsvd _ _ hu
          rw [hx.1] at w2
          refine ⟨⟨?_, ?_⟩, ?_, w2⟩
          · simp [Mat.mul, matMul, hx.2, lhsMat, transpose]
          · intro row hrow
            simp only [mem_map] at hrow
            obtain ⟨a, -, rfl⟩ := hrow
            exact length_vecMat _ _ _ w1.2
          · rw [hx.2, lhsMat_of r Z hZ hne]; rfl

/-- `L2Solver` depends only on its regularizer and the last data. -/
theorem l2Solver_memoryless [Field K] [DecidableEq K] (svd : Mat K → Except Err (Svd K)) :
    (l2Solver svd).Memoryless L2.reg := by
  constructor
  · intro s D Z
    simp only [l2Solver]
    split
    · rfl
    · rw [L2.fit]; split
      · rfl
      · split <;> rfl
  · intro s t D Z h
    simp only [l2Solver]
    split
    · exact ⟨rfl, fun h => by cases h⟩
    · simp only [L2.fit]
      cases templateFit (.mat D) (.mat (lhsMat Z)) with
      | error e => exact ⟨rfl, fun h => by cases h⟩
      | ok x =>
        simp only
        cases svd x.1 with
        | error e => exact ⟨rfl, fun h => by cases h⟩
        | ok u => exact ⟨rfl, fun _ => by simp only [L2.solve, h]⟩

/-- `PlainSolver` satisfies the shape contract when `scipy.linalg.lstsq` does. -/
theorem plainSolver_shaped [Zero K] (lstsq : Mat K → Mat K → Except Err (Mat K))
    (hl : ∀ A B X, lstsq A B = .ok X → X.WF ∧ X.nrows = A.ncols ∧ X.ncols = B.ncols) (r : Nat) :
    (plainSolver lstsq).Shaped r := by
  intro s D Z O hZ hfit hO
  have hne : Z ≠ [] := by rintro rfl; simp [plainSolver] at hfit
  have hne' : Z.isEmpty = false := by simpa using hne
  simp only [plainSolver, hne', Bool.false_eq_true, if_false] at hfit hO
  rw [Plain.fit] at hfit hO
  cases ht : templateFit (.mat D) (.mat (lhsMat Z)) with
  | error e => rw [ht] at hfit; cases hfit
  | ok x =>
    obtain ⟨D', Z'⟩ := x
    have hx : D' = D ∧ Z' = lhsMat Z := by
      simp only [templateFit] at ht
      split at ht
      · cases ht
      · injection ht with ht; injection ht with h1 h2; exact ⟨h1.symm, h2.symm⟩
    rw [ht] at hO
    simp only [Plain.solve, bind, Except.bind] at hO
    cases hX : lstsq D' Z'.t with
    | error e => rw [hX] at hO; cases hO
    | ok X =>
      rw [hX] at hO
      injection hO with hO
      subst hO
      obtain ⟨w1, w2, w3⟩ := hl _ _ _ hX
      refine ⟨X.t_wf w1, ?_, ?_⟩
      · show X.ncols = r
        rw [w3, hx.2, lhsMat_of r Z hZ hne]; rfl
      · show X.nrows = D.ncols
        rw [w2, hx.1]

/-- `PlainSolver` depends only on the last data. -/
theorem plainSolver_memoryless [Zero K] (lstsq : Mat K → Mat K → Except Err (Mat K)) :
    (plainSolver lstsq).Memoryless (fun _ => ()) := by
  refine ⟨fun _ _ _ => rfl, ?_⟩
  intro s t D Z _
  simp only [plainSolver]
  split
  · exact ⟨rfl, fun h => by cases h⟩
  · simp only [Plain.fit]
    cases templateFit (.mat D) (.mat (lhsMat Z)) with
    | error e => exact ⟨rfl, fun h => by cases h⟩
    | ok x => exact ⟨rfl, fun _ => rfl⟩

/-- `TikhonovSolver` depends only on its regularizer, its method and the last data. -/
theorem tikSolver_memoryless [Semiring K] (lstsq posSolve : Mat K → Mat K → Except Err (Mat K)) :
    (tikSolver lstsq posSolve).Memoryless (fun s => (s.reg, s.method)) := by
  constructor
  · intro s D Z
    simp only [tikSolver]
    split
    · rfl
    · rw [Tik.fit1, Tik.fit]; split
      · rfl
      · simp only
        split <;> rfl
  · intro s t D Z h
    obtain ⟨h1, h2⟩ := Prod.mk.inj h
    simp only [tikSolver]
    split
    · exact ⟨rfl, fun h => by cases h⟩
    · simp only [Tik.fit1, Tik.fit]
      cases templateFit (.mat D) (.mat (lhsMat Z)) with
      | error e => exact ⟨rfl, fun h => by cases h⟩
      | ok x =>
        simp only [h1]
        cases t.reg with
        | none => exact ⟨rfl, fun _ => by simp only [Tik.solve, h1]⟩
        | some G =>
          simp only
          cases tikShape x.1.ncols G with
          | error e => exact ⟨rfl, fun h => by cases h⟩
          | ok _ => exact ⟨rfl, fun _ => by simp only [Tik.solve, h1, h2]⟩

/-- `TikhonovSolver` satisfies the shape contract when `lstsq` and `solve` do. -/
theorem tikSolver_shaped [Semiring K] (lstsq posSolve : Mat K → Mat K → Except Err (Mat K))
    (hl : ∀ A B X, lstsq A B = .ok X → X.WF ∧ X.nrows = A.ncols ∧ X.ncols = B.ncols)
    (hp : ∀ A B X, A.nrows = B.nrows → A.nrows = A.ncols → posSolve A B = .ok X →
      X.WF ∧ X.nrows = A.nrows ∧ X.ncols = B.ncols) (r : Nat) :
    (tikSolver lstsq posSolve).Shaped r := by
  intro s D Z O hZ hfit hO
  have hne : Z ≠ [] := by rintro rfl; simp [tikSolver] at hfit
  have hne' : Z.isEmpty = false := by simpa using hne
  simp only [tikSolver, hne', Bool.false_eq_true, if_false] at hfit hO
  rw [Tik.fit1, Tik.fit] at hfit hO
  cases ht : templateFit (.mat D) (.mat (lhsMat Z)) with
  | error e => rw [ht] at hfit; cases hfit
  | ok x =>
    obtain ⟨D', Z'⟩ := x
    have hx : D' = D ∧ Z' = lhsMat Z := by
      simp only [templateFit] at ht
      split at ht
      · cases ht
      · injection ht with ht; injection ht with h1 h2; exact ⟨h1.symm, h2.symm⟩
    rw [ht] at hO hfit
    obtain ⟨rfl, rfl⟩ := hx
    simp only at hO hfit
    cases hreg : s.reg with
    | none => rw [hreg] at hO; simp [Tik.solve, hreg] at hO
    | some G =>
      rw [hreg] at hO hfit
      simp only at hO hfit
      cases hsh : tikShape D'.ncols G with
      | error e => rw [hsh] at hfit; cases hfit
      | ok _ =>
        have hG : G.nrows = D'.ncols ∧ G.ncols = D'.ncols := by
          by_contra hc; rw [tikShape, if_neg hc] at hsh; cases hsh
        rw [hsh] at hO
        have hZr : (lhsMat Z).nrows = r := by rw [lhsMat_of r Z hZ hne]
        have hDZ : (lhsMat Z).ncols = D'.nrows := by
          by_contra hc
          simp [templateFit, hc] at ht
        simp only [Tik.solve, hreg, bind, Except.bind] at hO
        cases hX : tikSolve lstsq posSolve s.method D' G (tikPre D' (lhsMat Z)).ZtPad
            (tikPre D' (lhsMat Z)).DtD (tikPre D' (lhsMat Z)).DtZt with
        | error e => rw [hX] at hO; cases hO
        | ok X =>
          rw [hX] at hO
          injection hO with hO
          subst hO
          have key : X.WF ∧ X.nrows = D'.ncols ∧ X.ncols = r := by
            cases hm : s.method with
            | lstsq =>
              rw [hm, tikSolve_lstsq _ _ _ _ _ _ _ hG.2 (by simp [tikPre, hG.1, hDZ])] at hX
              obtain ⟨a, b, c⟩ := hl _ _ _ hX
              exact ⟨a, b, c.trans hZr⟩
            | normal =>
              rw [hm] at hX
              have e : (tikPre D' (lhsMat Z)).DtD = D'.t.mul D' := rfl
              rw [e, tikSolve_normal _ _ _ _ _ _ hG.2 rfl] at hX
              obtain ⟨a, b, c⟩ := hp _ _ _ (by rfl) (by rfl) hX
              exact ⟨a, b, c.trans hZr⟩
          exact ⟨X.t_wf key.1, key.2.2, key.2.1⟩

/-! ### C60 for the built-in solvers -/

/-- **C60** (`L2Solver`): a model with an `L2Solver` forgets its fitting history. -/
theorem C60_l2_fit_forgets_history [Field K] [DecidableEq K] (svd : Mat K → Except Err (Svd K))
    (hsvd : ∀ D u, svd D = .ok u → u.PsiT.WF ∧ u.PsiT.ncols = D.ncols)
    (M : Model K (L2 K K)) (hM : M.Inv) (hint : M.intrusive = false) (calls : List (FitCall K))
    (hc : ∀ c ∈ calls, c.WF) (c : FitCall K) :
    ((M.runFits (l2Solver svd) calls).fit (l2Solver svd) c.states c.lhs c.inputs).2
      = (M.fit (l2Solver svd) c.states c.lhs c.inputs).2 ∧
    ((M.runFits (l2Solver svd) calls).fit (l2Solver svd) c.states c.lhs c.inputs).1.slots
      = (M.fit (l2Solver svd) c.states c.lhs c.inputs).1.slots := by
  obtain ⟨h1, h2, -⟩ := C60_fit_forgets_history (l2Solver svd) L2.reg (l2Solver_memoryless svd) M hM
    hint calls (fun c h => ⟨hc c h, l2Solver_shaped svd hsvd _⟩) c
  exact ⟨h1, h2⟩

/-- **C60** (`TikhonovSolver`): a model with a `TikhonovSolver` forgets its fitting history. -/
theorem C60_tikhonov_fit_forgets_history [Field K]
    (lstsq posSolve : Mat K → Mat K → Except Err (Mat K))
    (hl : ∀ A B X, lstsq A B = .ok X → X.WF ∧ X.nrows = A.ncols ∧ X.ncols = B.ncols)
    (hp : ∀ A B X, A.nrows = B.nrows → A.nrows = A.ncols → posSolve A B = .ok X →
      X.WF ∧ X.nrows = A.nrows ∧ X.ncols = B.ncols)
    (M : Model K (Tik (Mat K) K)) (hM : M.Inv) (hint : M.intrusive = false) (calls : List (FitCall K))
    (hc : ∀ c ∈ calls, c.WF) (c : FitCall K) :
    let I := tikSolver lstsq posSolve
    ((M.runFits I calls).fit I c.states c.lhs c.inputs).2 = (M.fit I c.states c.lhs c.inputs).2 ∧
    ((M.runFits I calls).fit I c.states c.lhs c.inputs).1.slots
      = (M.fit I c.states c.lhs c.inputs).1.slots := by
  intro I
  obtain ⟨h1, h2, -⟩ := C60_fit_forgets_history I _ (tikSolver_memoryless lstsq posSolve) M hM
    hint calls (fun c h => ⟨hc c h, tikSolver_shaped lstsq posSolve hl hp _⟩) c
  exact ⟨h1, h2⟩

/-! ### C62: the learned operators are optimal -/

/-- The regression residual over the snapshots of a model whose output at snapshot `j` is `y j`. -/
def snapshotLoss [CommRing K] (k : Nat) (lhs : List (List K)) (y : Nat → List K) : K :=
  ((range k).map fun j => sumSq (vsub (lhs.getD j []) (y j))).sum

/-- The output at a snapshot if the learned operators had the operator matrix `O`: `O d(q, u) + w` with
`w` the output of the known operators. -/
def outputWith [CommRing K] {S : Type} (M : Model K S) (O : Mat K) (states : Arg K)
    (inputs : Option (Arg K)) (w : Nat → List K) (j : Nat) : List K :=
  vadd (matVec O.rows (M.toInfer.flatMap fun o =>
    o.dataCol ((atleast2d states).2.getD j []) ((inputAt inputs j).getD []))) (w j)

/-- What training optimises: the residual over the snapshots plus a penalty on the operator matrix;
`O` is the operator matrix after training, `y` the output of the trained model and `w` the output of the
known operators. -/
structure FitOptimal [CommRing K] [LE K] {S : Type} (M M' : Model K S) (states lhs : Arg K)
    (inputs : Option (Arg K)) (penalty : Mat K → K) (O : Mat K) (y w : Nat → List K) : Prop where
  opMatrix : M'.operatorMatrix = .ok O
  wf : O.WF
  nrows : O.nrows = (atleast2d states).1
  ncols : ∀ j, j < (atleast2d states).2.length → (M.toInfer.flatMap fun o =>
    o.dataCol ((atleast2d states).2.getD j []) ((inputAt inputs j).getD [])).length = O.ncols
  output : ∀ j, j < (atleast2d states).2.length →
    M'.rhs ((atleast2d states).2.getD j []) (inputAt inputs j) = .ok (y j) ∧
    M.knownPart.rhs ((atleast2d states).2.getD j []) (inputAt inputs j) = .ok (w j)
  optimal : ∀ O' : Mat K, O'.WF → O'.nrows = O.nrows → O'.ncols = O.ncols →
    snapshotLoss (atleast2d states).2.length (atleast2d lhs).2 y + penalty O ≤
      snapshotLoss (atleast2d states).2.length (atleast2d lhs).2 (outputWith M O' states inputs w) +
        penalty O'

theorem vsub_vsub_eq [CommRing K] (a b c : List K) : vsub (vsub a b) c = vsub a (vadd c b) := by
  induction a generalizing b c with
  | nil => simp [vsub]
  | cons a as ih =>
    cases b with
    | nil => simp [vsub, vadd]
    | cons b bs =>
      cases c with
      | nil => simp [vsub, vadd]
      | cons c cs =>
        have := ih bs cs
        simp only [vsub, vadd, zipWith_cons_cons] at this ⊢
        rw [this, sub_sub, add_comm b c]

/-- `Σ_i ‖D o_i − z_i‖²`. -/
def rowLoss [CommRing K] (D Z O : Mat K) : K :=
  (zipWith (fun z o => sumSq (vsub (matVec D.rows o) z)) Z.rows O.rows).sum

/-- Training solves the regression problem: the solver is given a data matrix and a right-hand side for
which the solver's objective is the loss over the snapshots. -/
theorem fit_regression {S : Type} [Field K] [LE K] (I : SolverI K S) (M : Model K S) (hM : M.Inv)
    (hint : M.intrusive = false) (states lhs : Arg K) (inputs : Option (Arg K)) (hs : states.WF)
    (hl : lhs.WF) (hin : ∀ a ∈ inputs, a.WF) (hr : 0 < (atleast2d states).1)
    (hI : I.Shaped (atleast2d states).1) (hempty : ∀ s D, (I.fit s D []).2 ≠ .ok ()) (M' : Model K S)
    (hfit : M.fit I states lhs inputs = (M', .ok ())) :
    ∃ (s : S) (D O : Mat K) (Z : List (List K)) (y w : Nat → List K), M.solver = some s ∧ Z ≠ [] ∧
      I.solve (I.fit s D Z).1 = .ok O ∧ (I.fit s D Z).2 = .ok () ∧ D.WF ∧ (lhsMat Z).WF ∧
      (lhsMat Z).ncols = D.nrows ∧ O.WF ∧ O.nrows = (lhsMat Z).nrows ∧ O.ncols = D.ncols ∧
      ∀ penalty : Mat K → K,
        (∀ O' : Mat K, O'.WF → O'.nrows = O.nrows → O'.ncols = O.ncols →
          rowLoss D (lhsMat Z) O + penalty O ≤ rowLoss D (lhsMat Z) O' + penalty O') →
        FitOptimal M M' states lhs inputs penalty O y w := by
  obtain ⟨s, D, O, Z, c1, c2, c3, c4, c5, c6, c7, c8, c9, c10, c11, c12, c13, hj⟩ :=
    C13_fit_residual I M hM hint states lhs inputs hs hl hin hr hI M' hfit
  obtain ⟨⟨s2, hs2, hop⟩, -⟩ := C14_fit_operator_matrix I M hM hint states lhs inputs hs hl hin hr hI
    M' hfit
  rw [c2] at hs2
  injection hs2 with hs2
  rw [← hs2, c3] at hop
  have hne : Z ≠ [] := by rintro rfl; exact hempty _ _ c7
  have hlm := lhsMat_of (atleast2d states).1 Z c13 hne
  have hZwf := lhsMat_wf (atleast2d states).1 Z c13 hne
  have hk : (lhsMat Z).ncols = D.nrows := by rw [c9, ← c5]; rfl
  have hall : ∀ j, ∃ y w, j < (atleast2d states).2.length →
      M'.rhs ((atleast2d states).2.getD j []) (inputAt inputs j) = .ok y ∧
      M.knownPart.rhs ((atleast2d states).2.getD j []) (inputAt inputs j) = .ok w ∧
      Z.getD j [] = vsub ((atleast2d lhs).2.getD j []) w ∧
      vsub (Z.getD j []) (matVec O.rows (D.rows.getD j [])) = vsub ((atleast2d lhs).2.getD j []) y := by
    intro j
    by_cases h : j < (atleast2d states).2.length
    · obtain ⟨-, y, w, k1, k2, k3, k4, k5⟩ := hj j h
      exact ⟨y, w, fun _ => ⟨k1, k2, k3, k5⟩⟩
    · exact ⟨[], [], fun h' => absurd h' h⟩
  choose y w hyw using hall
  refine ⟨s, D, O, Z, y, w, c1, hne, c3, c7, c8, hZwf, hk, c10, by rw [hlm]; exact c11, c12, ?_⟩
  intro penalty hmin
  refine ⟨hop, c10, c11, fun j h => by
    rw [← (hj j h).1, getD_eq_getElem _ _ (c4 ▸ h), c8.2 _ (getElem_mem _), c12], fun j h => ⟨(hyw j h).1, (hyw j h).2.1⟩, ?_⟩
  intro O' hO' hr' hc'
  have hswap : ∀ P : Mat K, P.rows.length = (atleast2d states).1 → rowLoss D (lhsMat Z) P =
      ((range (atleast2d states).2.length).map fun j =>
        sumSq (vsub (Z.getD j []) (matVec P.rows (D.rows.getD j [])))).sum := by
    intro P hP
    rw [rowLoss, show (lhsMat Z).rows = transpose (atleast2d states).1 Z by rw [hlm]]
    exact residual_swap (atleast2d states).1 (atleast2d states).2.length D P Z c13 c5 c4 hP
  have h := hmin O' hO' hr' hc'
  rw [hswap O (by rw [c10.1, c11]), hswap O' (by rw [hO'.1, hr', c11])] at h
  have e1 : snapshotLoss (atleast2d states).2.length (atleast2d lhs).2 y =
      ((range (atleast2d states).2.length).map fun j =>
        sumSq (vsub (Z.getD j []) (matVec O.rows (D.rows.getD j [])))).sum := by
    rw [snapshotLoss]
    congr 1
    apply map_congr_left
    intro j h
    rw [(hyw j (mem_range.mp h)).2.2.2]
  have e2 : snapshotLoss (atleast2d states).2.length (atleast2d lhs).2
        (outputWith M O' states inputs w) =
      ((range (atleast2d states).2.length).map fun j =>
        sumSq (vsub (Z.getD j []) (matVec O'.rows (D.rows.getD j [])))).sum := by
    rw [snapshotLoss]
    congr 1
    apply map_congr_left
    intro j h
    have hj' := mem_range.mp h
    rw [outputWith, ← (hj j hj').1, (hyw j hj').2.2.1, vsub_vsub_eq]
  rw [e1, e2]
  exact h

section

variable [Field K] [LinearOrder K] [IsStrictOrderedRing K]

/-- A successful fit and solution of `L2Solver` minimises `Σ_i ‖D o_i − z_i‖² + λ²‖O‖²`. -/
theorem l2Solver_optimal (svd : Mat K → Except Err (Svd K)) (hsvd : ∀ D u, svd D = .ok u → IsSVD D u)
    (s : L2 K K) (D O : Mat K) (Z : List (List K)) (hne : Z ≠ [])
    (c3 : (l2Solver svd).solve ((l2Solver svd).fit s D Z).1 = .ok O)
    (c7 : ((l2Solver svd).fit s D Z).2 = .ok ()) (c8 : D.WF) (hZwf : (lhsMat Z).WF)
    (hk : (lhsMat Z).ncols = D.nrows) (c11 : O.nrows = (lhsMat Z).nrows) (c12 : O.ncols = D.ncols) :
    ∃ lam, s.reg = some lam ∧ ∀ O' : Mat K, O'.WF → O'.nrows = O.nrows → O'.ncols = O.ncols →
      rowLoss D (lhsMat Z) O + lam ^ 2 * (O.rows.map sumSq).sum ≤
        rowLoss D (lhsMat Z) O' + lam ^ 2 * (O'.rows.map sumSq).sum := by
  have hne' : Z.isEmpty = false := by simpa using hne
  have hfitZ : (l2Solver svd).fit s D Z = s.fit svd (.mat D) (.mat (lhsMat Z)) := by
    simp only [l2Solver, hne', Bool.false_eq_true, if_false]
  obtain ⟨u, hu⟩ : ∃ u, svd D = .ok u := by
    rw [hfitZ, L2.fit, templateFit_mat D _ hk] at c7
    simp only at c7
    cases hu : svd D with
    | error e => rw [hu] at c7; cases c7
    | ok u => exact ⟨u, rfl⟩
  obtain ⟨lam, hlam⟩ : ∃ lam, s.reg = some lam := by
    rw [hfitZ, L2.fit_ok svd s D (lhsMat Z) hk u hu] at c3
    cases h : s.reg with
    | none => simp [l2Solver, L2.solve, h] at c3
    | some lam => exact ⟨lam, rfl⟩
  obtain ⟨s', h1, h2, h3⟩ := C22_l2_minimises svd s D (lhsMat Z) c8 hZwf hk u hu (hsvd D u hu) lam hlam
  have hs' : ((l2Solver svd).fit s D Z).1 = s' := by rw [hfitZ, h1]
  rw [hs'] at c3
  have hnz : ¬ (lam = 0 ∧ (0 : K) ∈ u.s) := fun hc => by
    have := h2 hc
    rw [show (l2Solver svd).solve s' = s'.solve from rfl, this] at c3
    cases c3
  obtain ⟨O1, e1, -, -, -, e5⟩ := h3 hnz
  rw [show (l2Solver svd).solve s' = s'.solve from rfl, e1] at c3
  injection c3 with c3
  subst c3
  refine ⟨lam, hlam, ?_⟩
  intro O' hO' hr' hc'
  have hlen : O'.rows.length = (lhsMat Z).rows.length := by rw [hO'.1, hr', hZwf.1, c11]
  have hmin : frobL2 D (lhsMat Z) lam O1 ≤ frobL2 D (lhsMat Z) lam O' := by
    rw [frobL2_eq _ _ _ _ e5.length_eq, frobL2_eq _ _ _ _ hlen.symm]
    exact sum_le_of_rows (d := D.ncols) _ _ _ (e5.imp fun _ _ h => h.1) hlen
      (fun o ho => by rw [hO'.2 o ho, hc', c12])
  exact hmin

/-- **C62** (`L2Solver`): after `fit`, the model's outputs at the training snapshots minimise
`Σ_j ‖lhs_j − model(q_j, u_j)‖² + λ²‖O‖²`: no other operator matrix `O'` for the learned operators
(with the known ones kept) does better. -/
theorem C62_l2_fit_is_optimal (svd : Mat K → Except Err (Svd K))
    (hsvd : ∀ D u, svd D = .ok u → IsSVD D u) (M : Model K (L2 K K)) (hM : M.Inv)
    (hint : M.intrusive = false) (states lhs : Arg K) (inputs : Option (Arg K)) (hs : states.WF)
    (hl : lhs.WF) (hin : ∀ a ∈ inputs, a.WF) (hr : 0 < (atleast2d states).1) (M' : Model K (L2 K K))
    (hfit : M.fit (l2Solver svd) states lhs inputs = (M', .ok ())) :
    ∃ (s : L2 K K) (lam : K) (O : Mat K) (y w : Nat → List K), M.solver = some s ∧ s.reg = some lam ∧
      FitOptimal M M' states lhs inputs (fun O => lam ^ 2 * (O.rows.map sumSq).sum) O y w := by
  have hsh := l2Solver_shaped svd (fun D u h => ⟨(hsvd D u h).psiWF, (hsvd D u h).psiCols⟩)
    (atleast2d states).1
  obtain ⟨s, D, O, Z, y, w, c1, hne, c3, c7, c8, hZwf, hk, c10, c11, c12, hopt⟩ :=
    fit_regression _ M hM hint states lhs inputs hs hl hin hr hsh
      (fun s D => by simp [l2Solver]) M' hfit
  obtain ⟨lam, hlam, hmin⟩ := l2Solver_optimal svd hsvd s D O Z hne c3 c7 c8 hZwf hk c11 c12
  exact ⟨s, lam, O, y, w, c1, hlam, hopt _ hmin⟩

omit [LinearOrder K] [IsStrictOrderedRing K] in
theorem rowLoss_add (D Z O : Mat K) (pen : List K → K) (h : Z.rows.length = O.rows.length) :
    rowLoss D Z O + (O.rows.map pen).sum =
      (zipWith (fun z o => sumSq (vsub (matVec D.rows o) z) + pen o) Z.rows O.rows).sum := by
  rw [rowLoss]
  generalize Z.rows = Zr at h ⊢
  generalize O.rows = Or at h ⊢
  induction Zr generalizing Or with
  | nil => obtain rfl := length_eq_zero_iff.mp h.symm; simp
  | cons z Zr ih =>
    cases Or with
    | nil => simp at h
    | cons o Or =>
      have := ih Or (by simpa using h)
      simp only [zipWith_cons_cons, sum_cons, map_cons]
      rw [← this]
      ring

theorem optimal_of_rows (D Z O O' : Mat K) (pen : List K → K)
    (h : Forall₂ (fun z o => Minimises (fun o => sumSq (vsub (matVec D.rows o) z) + pen o) D.ncols o)
      Z.rows O.rows) (hl : O'.rows.length = Z.rows.length) (hw : ∀ o ∈ O'.rows, o.length = D.ncols) :
    rowLoss D Z O + (O.rows.map pen).sum ≤ rowLoss D Z O' + (O'.rows.map pen).sum := by
  rw [rowLoss_add D Z O pen h.length_eq, rowLoss_add D Z O' pen hl.symm]
  exact sum_le_of_rows (d := D.ncols) _ _ _ h hl hw

/-- A successful fit and solution of `PlainSolver` minimises `Σ_i ‖D o_i − z_i‖²`. -/
theorem plainSolver_optimal (lstsq : Mat K → Mat K → Except Err (Mat K))
    (hls : ∀ A B X, lstsq A B = .ok X → IsLstsq A B X) (s : Plain K) (D O : Mat K) (Z : List (List K))
    (hne : Z ≠ []) (c3 : (plainSolver lstsq).solve ((plainSolver lstsq).fit s D Z).1 = .ok O)
    (hZwf : (lhsMat Z).WF) (hk : (lhsMat Z).ncols = D.nrows) (c11 : O.nrows = (lhsMat Z).nrows)
    (c12 : O.ncols = D.ncols) :
    ∀ O' : Mat K, O'.WF → O'.nrows = O.nrows → O'.ncols = O.ncols →
      rowLoss D (lhsMat Z) O + 0 ≤ rowLoss D (lhsMat Z) O' + 0 := by
  have hne' : Z.isEmpty = false := by simpa using hne
  simp only [plainSolver, hne', Bool.false_eq_true, if_false, Plain.fit, templateFit_mat D _ hk,
    Plain.solve, bind, Except.bind] at c3
  cases hX : lstsq D (lhsMat Z).t with
  | error e => rw [hX] at c3; cases c3
  | ok X =>
    rw [hX] at c3
    injection c3 with c3
    subst c3
    have hls := hls _ _ _ hX
    intro O' hO' hr' hc'
    have hlen : O'.rows.length = (lhsMat Z).rows.length := by rw [hO'.1, hr', hZwf.1, c11]
    have := optimal_of_rows D (lhsMat Z) X.t O' (fun _ => 0) ?_ hlen
      (fun o ho => by rw [hO'.2 o ho, hc', c12])
    · simpa using this
    · rw [Mat.t_rows_eq, forall₂_iff_get]
      have hc : X.ncols = (lhsMat Z).nrows := hls.cols
      refine ⟨by simp [hc, hZwf.1], fun i h1 h2 => ?_⟩
      have := hls.min i (by show i < (lhsMat Z).nrows; rw [← hZwf.1]; exact h1)
      simp only [get_eq_getElem, getElem_map, getElem_range, add_zero]
      rwa [show col (lhsMat Z).t.rows i = (lhsMat Z).rows[i] from
        col_transpose _ _ i (fun z hz => hZwf.2 z hz) h1] at this

/-- **C62** (`PlainSolver`): after `fit`, the model's outputs at the training snapshots minimise
`Σ_j ‖lhs_j − model(q_j, u_j)‖²`. -/
theorem C62_plain_fit_is_optimal (lstsq : Mat K → Mat K → Except Err (Mat K))
    (hls : ∀ A B X, lstsq A B = .ok X → IsLstsq A B X) (M : Model K (Plain K)) (hM : M.Inv)
    (hint : M.intrusive = false) (states lhs : Arg K) (inputs : Option (Arg K)) (hs : states.WF)
    (hl : lhs.WF) (hin : ∀ a ∈ inputs, a.WF) (hr : 0 < (atleast2d states).1) (M' : Model K (Plain K))
    (hfit : M.fit (plainSolver lstsq) states lhs inputs = (M', .ok ())) :
    ∃ (O : Mat K) (y w : Nat → List K), FitOptimal M M' states lhs inputs (fun _ => 0) O y w := by
  have hsh := plainSolver_shaped lstsq
    (fun A B X h => ⟨(hls A B X h).wf, (hls A B X h).rows, (hls A B X h).cols⟩) (atleast2d states).1
  obtain ⟨s, D, O, Z, y, w, c1, hne, c3, c7, c8, hZwf, hk, c10, c11, c12, hopt⟩ :=
    fit_regression _ M hM hint states lhs inputs hs hl hin hr hsh
      (fun s D => by simp [plainSolver]) M' hfit
  exact ⟨O, y, w, hopt _ (plainSolver_optimal lstsq hls s D O Z hne c3 hZwf hk c11 c12)⟩

/-- A successful fit and solution of `TikhonovSolver` minimises `Σ_i ‖D o_i − z_i‖² + ‖Γ Oᵀ‖²`. -/
theorem tikSolver_optimal (lstsq posSolve : Mat K → Mat K → Except Err (Mat K))
    (hls : ∀ A B X, lstsq A B = .ok X → IsLstsq A B X)
    (hps : ∀ A B X, A.nrows = B.nrows → A.nrows = A.ncols → posSolve A B = .ok X → IsSolution A B X)
    (s : Tik (Mat K) K) (hreg : ∀ G ∈ s.reg, G.WF) (D O : Mat K) (Z : List (List K)) (hne : Z ≠ [])
    (c3 : (tikSolver lstsq posSolve).solve ((tikSolver lstsq posSolve).fit s D Z).1 = .ok O)
    (c7 : ((tikSolver lstsq posSolve).fit s D Z).2 = .ok ()) (c8 : D.WF) (hZwf : (lhsMat Z).WF)
    (hk : (lhsMat Z).ncols = D.nrows) (c11 : O.nrows = (lhsMat Z).nrows) (c12 : O.ncols = D.ncols) :
    ∃ G, s.reg = some G ∧ ∀ O' : Mat K, O'.WF → O'.nrows = O.nrows → O'.ncols = O.ncols →
      rowLoss D (lhsMat Z) O + (O.rows.map fun o => sumSq (matVec G.rows o)).sum ≤
        rowLoss D (lhsMat Z) O' + (O'.rows.map fun o => sumSq (matVec G.rows o)).sum := by
  have hne' : Z.isEmpty = false := by simpa using hne
  have hfitZ : (tikSolver lstsq posSolve).fit s D Z = s.fit1 (.mat D) (.mat (lhsMat Z)) := by
    simp only [tikSolver, hne', Bool.false_eq_true, if_false]
  rw [hfitZ] at c3 c7
  obtain ⟨G, hG⟩ : ∃ G, s.reg = some G := by
    rw [Tik.fit1, Tik.fit, templateFit_mat D _ hk] at c3
    simp only at c3
    cases h : s.reg with
    | none => rw [h] at c3; simp [tikSolver, Tik.solve, h] at c3
    | some G => exact ⟨G, rfl⟩
  have hGs : G.nrows = D.ncols ∧ G.ncols = D.ncols := by
    rw [Tik.fit1, Tik.fit, templateFit_mat D _ hk] at c7
    simp only [hG, tikShape] at c7
    by_contra hc
    rw [if_neg hc] at c7
    cases c7
  have hGwf := hreg G hG
  have hfo := Tik.fit1_ok s D (lhsMat Z) G hk hG hGs.1 hGs.2
  have hrows : Forall₂ (fun z o => Minimises (objTik D G z) D.ncols o) (lhsMat Z).rows O.rows := by
    cases hm : s.method with
    | lstsq =>
      have c3' := c3
      rw [hfo] at c3'
      simp only [tikSolver, Tik.solve, hm, tikPre_eq] at c3'
      rw [tikSolve_lstsq _ _ _ _ _ _ _ hGs.2 (by simp [padRhs, hk, hGs.1])] at c3'
      cases hX : lstsq (stackMat D G) (padRhs D.ncols (lhsMat Z)) with
      | error e => rw [hX] at c3'; cases c3'
      | ok X =>
        obtain ⟨s', P, h1, h2, -, -, -, h6⟩ := C24_tikhonov_lstsq_minimises lstsq posSolve s D (lhsMat Z)
          G c8 hZwf hGwf hk hG hGs.1 hGs.2 hm X hX (hls _ _ _ hX)
        rw [h1] at c3
        have : (Except.ok P : Except Err (Mat K)) = .ok O := h2.symm.trans c3
        injection this with this
        rw [← this]
        exact h6
    | normal =>
      have c3' := c3
      rw [hfo] at c3'
      simp only [tikSolver, Tik.solve, hm, tikPre_eq] at c3'
      rw [tikSolve_normal _ _ _ _ _ _ hGs.2 rfl] at c3'
      cases hX : posSolve (normalMat D G) (normalRhs D (lhsMat Z)) with
      | error e => rw [hX] at c3'; cases c3'
      | ok X =>
        obtain ⟨s', P, h1, h2, -, -, -, h6⟩ := C24_tikhonov_normal_minimises lstsq posSolve s D (lhsMat Z)
          G c8 hZwf hGwf hk hG hGs.1 hGs.2 hm X hX (hps _ _ _ rfl rfl hX)
        rw [h1] at c3
        have : (Except.ok P : Except Err (Mat K)) = .ok O := h2.symm.trans c3
        injection this with this
        rw [← this]
        exact h6
  refine ⟨G, hG, ?_⟩
  intro O' hO' hr' hc'
  exact optimal_of_rows D (lhsMat Z) O O' (fun o => sumSq (matVec G.rows o)) hrows
    (by rw [hO'.1, hr', hZwf.1, c11]) (fun o ho => by rw [hO'.2 o ho, hc', c12])

/-- **C62** (`TikhonovSolver`): after `fit`, with either method, the model's outputs at the training
snapshots minimise `Σ_j ‖lhs_j − model(q_j, u_j)‖² + ‖Γ Oᵀ‖²`. -/
theorem C62_tikhonov_fit_is_optimal (lstsq posSolve : Mat K → Mat K → Except Err (Mat K))
    (hls : ∀ A B X, lstsq A B = .ok X → IsLstsq A B X)
    (hps : ∀ A B X, A.nrows = B.nrows → A.nrows = A.ncols → posSolve A B = .ok X → IsSolution A B X)
    (M : Model K (Tik (Mat K) K)) (hM : M.Inv) (hint : M.intrusive = false)
    (hreg : ∀ s ∈ M.solver, ∀ G ∈ s.reg, G.WF) (states lhs : Arg K) (inputs : Option (Arg K))
    (hs : states.WF) (hl : lhs.WF) (hin : ∀ a ∈ inputs, a.WF) (hr : 0 < (atleast2d states).1)
    (M' : Model K (Tik (Mat K) K))
    (hfit : M.fit (tikSolver lstsq posSolve) states lhs inputs = (M', .ok ())) :
    ∃ (s : Tik (Mat K) K) (G O : Mat K) (y w : Nat → List K), M.solver = some s ∧ s.reg = some G ∧
      FitOptimal M M' states lhs inputs (fun O => (O.rows.map fun o => sumSq (matVec G.rows o)).sum)
        O y w := by
  have hsh := tikSolver_shaped lstsq posSolve
    (fun A B X h => ⟨(hls A B X h).wf, (hls A B X h).rows, (hls A B X h).cols⟩)
    (fun A B X e q h => ⟨(hps A B X e q h).wf, (hps A B X e q h).rows.trans q.symm, (hps A B X e q h).cols⟩)
    (atleast2d states).1
  obtain ⟨s, D, O, Z, y, w, c1, hne, c3, c7, c8, hZwf, hk, c10, c11, c12, hopt⟩ :=
    fit_regression _ M hM hint states lhs inputs hs hl hin hr hsh
      (fun s D => by simp [tikSolver]) M' hfit
  obtain ⟨G, hG, hmin⟩ := tikSolver_optimal lstsq posSolve hls hps s (hreg s c1) D O Z hne c3 c7 c8 hZwf hk
    c11 c12
  exact ⟨s, G, O, y, w, c1, hG, hopt _ hmin⟩

end

end Opinf
