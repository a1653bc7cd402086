import Verif.Lemmas.ParamVariant
import Verif.Props.FitOptimal
import Verif.Props.ParamModel

/-!
# C85: parametric models trained with the built-in solvers are optimal
-/

namespace Opinf

open List

variable {K S : Type}

/-- What training a parametric model optimises. `smp` are the training samples `(mu, q, u)`, `L` the columns
of the left-hand sides, `y j` the right-hand side of the trained model at the `j`-th sample. Whatever entries
are given instead (through `set_entries`) to the operators to infer, the sum over all samples of
`‖lhs − model(mu, q, u)‖²` plus the penalty on the entries is not smaller. -/
structure PFitOptimal [Field K] [LinearOrder K] (lib : ItpLib K) (M' : PModel K S) (ps : List (Par K))
    (smp : List (Par K × List K × Option (List K))) (L : List (List K)) (r m : Nat)
    (penalty : List (List K) → K) (y : Nat → List K) : Prop where
  count : L.length = smp.length
  output : ∀ (j : Nat) x, smp[j]? = some x → (M'.rhs lib x.1 x.2.1 x.2.2).2 = .ok (y j)
  lengths : ∀ j, j < smp.length → (y j).length = r ∧ (L.getD j []).length = r
  among : Forall₂ (PSlot.Reset lib ps r m) M'.slots M'.slots
  optimal : ∀ slots', Forall₂ (PSlot.Reset lib ps r m) M'.slots slots' → ∃ y' : Nat → List K,
    (∀ (j : Nat) x, smp[j]? = some x →
      (PModel.rhs lib { M' with slots := slots' } x.1 x.2.1 x.2.2).2 = .ok (y' j)) ∧
    snapshotLoss smp.length L y + penalty (learnedRows r M'.slots)
      ≤ snapshotLoss smp.length L y' + penalty (learnedRows r slots')

/-- Training a parametric model solves a regression problem whose objective is the loss over the training
samples. -/
theorem pfit_regression [Field K] [LinearOrder K] (lib : ItpLib K) (I : SolverI K S) (M M' : PModel K S)
    (hint : M.intrusive = false) (ps : List (Par K)) (states lhs : List (Arg K))
    (inputs : Option (List (Arg K))) (r m : Nat) (hA : PFitArgs lib M ps states lhs inputs r m)
    (hL : ∀ s ∈ M.slots, s.infer = true → s.op.Learnable lib ps) (hI : I.Shaped r)
    (hempty : ∀ s D, (I.fit s D []).2 ≠ .ok ())
    (hfit : M.fit lib I ps states lhs inputs = (M', .ok ())) :
    ∃ (s : S) (D O : Mat K) (Z : List (List K)) (y : Nat → List K), M.solver = some s ∧ Z ≠ [] ∧
      I.solve (I.fit s D Z).1 = .ok O ∧ (I.fit s D Z).2 = .ok () ∧ D.WF ∧ (lhsMat Z).WF ∧
      (lhsMat Z).ncols = D.nrows ∧ O.WF ∧ O.nrows = (lhsMat Z).nrows ∧ O.ncols = D.ncols ∧
      ∀ penalty : List (List K) → K,
        (∀ O' : Mat K, O'.WF → O'.nrows = O.nrows → O'.ncols = O.ncols →
          rowLoss D (lhsMat Z) O + penalty O.rows ≤ rowLoss D (lhsMat Z) O' + penalty O'.rows) →
        PFitOptimal lib M' ps (trainSamples M.hasInputs ps states inputs)
          (lhs.flatMap fun L => (atleast2d L).2) r m penalty y := by
  rw [PModel.fit, if_neg (by simp [hint])] at hfit
  rcases hfs : M.fitSolver lib I ps states lhs inputs with ⟨M1, x⟩
  rw [hfs] at hfit
  cases x with
  | error e => simp at hfit
  | ok u =>
  simp only at hfit
  obtain ⟨s, D, Z, bs, d, g1, g2, g3, g4, g5, g6, g7, g8, g9, g10, g11, g12, g13, g14, g15, g16, g17, g18,
    g19, g20⟩ := pfit_master lib I M M1 ps states lhs inputs r m hA hL hfs
  rw [PModel.refit, if_neg (by simp [g7, hint]), g2] at hfit
  simp only at hfit
  cases hsol : I.solve (I.fit s D Z).1 with
  | error e => rw [hsol] at hfit; simp at hfit
  | ok O =>
  rw [hsol] at hfit
  simp only [g6, g4, g5, Option.getD_some, Prod.mk.injEq] at hfit
  obtain ⟨hM', hok⟩ := hfit
  rcases hex : pExtract lib ps.length r m O 0 M1.slots with ⟨slots', x⟩
  rw [hex] at hok hM'
  simp only at hok hM'
  subst hok
  have hMs : M'.slots = slots' := by rw [← hM']
  obtain ⟨hO, hOr, hOc⟩ := hI s D Z O g16 g3 hsol
  have hne : Z ≠ [] := by rintro rfl; exact hempty _ _ g3
  have hlm := lhsMat_of r Z g16 hne
  have hZwf := lhsMat_wf r Z g16 hne
  have hk : (lhsMat Z).ncols = D.nrows := by rw [g10, ← g14]; rfl
  have hlr : ∀ s1 ∈ M1.slots, s1.infer = true → s1.op.Learnable lib ps ∧ s1.op.Expects ps.length := by
    intro s1 h1 h2
    obtain ⟨b, -, hb⟩ := forall₂_mem_right g13.flip (mem_filter.mpr ⟨h1, h2⟩)
    exact ⟨hb.1, hb.2.1⟩
  obtain ⟨r1, r2⟩ := pExtract_reset lib ps r m hA.r_pos O hO hOr M1.slots slots' 0 hlr
    (by rw [hOc, g11]; simp) hex
  -- any operators with other entries
  have key : ∀ N : PModel K S, Forall₂ (PSlot.Reset lib ps r m) M1.slots N.slots →
      (⟨r, D.ncols, learnedRows r N.slots⟩ : Mat K).WF ∧
      ∀ (j : Nat) y, (trainSamples M.hasInputs ps states inputs)[j]? = some y →
        ∃ v, (N.rhs lib y.1 y.2.1 y.2.2).2 = .ok v ∧
          (v.length = r ∧ ((lhs.flatMap fun L => (atleast2d L).2).getD j []).length = r) ∧
          vsub (Z.getD j []) (matVec (learnedRows r N.slots) (D.rows.getD j []))
            = vsub ((lhs.flatMap fun L => (atleast2d L).2).getD j []) v := by
    intro N hN
    obtain ⟨e1, e2, e3⟩ := reset_spec lib ps r m hA.r_pos _ M1.slots N.slots bs g13 hN
    have hWF : (⟨r, D.ncols, learnedRows r N.slots⟩ : Mat K).WF := by
      refine ⟨by simp [learnedRows], ?_⟩
      intro row hrow
      obtain ⟨i, hi, rfl⟩ := mem_map.mp hrow
      rw [e2 i (mem_range.mp hi), g11]
    refine ⟨hWF, ?_⟩
    have hcomb : Forall₂ (fun s s' : PSlot K => s'.infer = s.infer ∧ s'.op.kind = s.op.kind ∧
        (s.infer = false → ∀ mu ∈ ps, ∀ op, s.op.EvalsTo lib mu r m op → s'.op.EvalsTo lib mu r m op) ∧
        (s.infer = true → ∀ mu ∈ ps, ∃ op, s'.op.EvalsTo lib mu r m op)) M.slots N.slots := by
      rw [forall₂_iff_get] at g19 e1 ⊢
      refine ⟨g19.1.trans e1.1, fun i h1 h2 => ?_⟩
      obtain ⟨a1, a2, a3⟩ := g19.2 i h1 (g19.1 ▸ h1)
      obtain ⟨b1, b2, b3, b4⟩ := e1.2 i (g19.1 ▸ h1) h2
      refine ⟨b1.trans a1, b2.trans a2, ?_, ?_⟩
      · intro hi
        have := b3 (a1.trans hi)
        rw [this]
        exact a3 hi
      · intro hi
        exact b4 (a1.trans hi)
    obtain ⟨-, hres⟩ := pResidual lib M N ps states lhs inputs r m hA D Z bs g10 g12 g16 g18 g20
      ⟨r, D.ncols, learnedRows r N.slots⟩ hWF rfl hcomb (by
        intro j y hy i hi
        rw [e3 j y hy i hi, getD_eq_getElem _ _ (by simpa [learnedRows] using hi)]
        simp [learnedRows])
    intro j y hy
    obtain ⟨d', l, z, v, w, k1, k2, k3, k4, -, k6, k7, k8⟩ := hres j y hy
    have hl : l.length = r := by
      obtain ⟨l', -, -, q1, -, q3, -⟩ := g20 j y hy
      rw [k2] at q1
      cases q1
      exact q3
    have hz : z.length = r := g16 z (mem_of_getElem? k3)
    have hv : v.length = r := by
      have : min l.length w.length = r := by rw [← length_vsub, ← k6, hz]
      rw [k7, length_vadd, length_matVec, hWF.1]
      simp only
      omega
    refine ⟨v, k4, ⟨hv, ?_⟩, ?_⟩
    · rw [getD_eq_getElem?_getD, k2]; exact hl
    rw [getD_eq_getElem?_getD, k3, getD_eq_getElem?_getD (l := D.rows), k1, getD_eq_getElem?_getD (l := lhs.flatMap _), k2]
    exact k8
  -- the loss of such operators
  have hswap : ∀ P : List (List K), P.length = r → rowLoss D (lhsMat Z) ⟨r, D.ncols, P⟩ =
      ((range (trainSamples M.hasInputs ps states inputs).length).map fun j =>
        sumSq (vsub (Z.getD j []) (matVec P (D.rows.getD j [])))).sum := by
    intro P hP
    rw [rowLoss, show (lhsMat Z).rows = transpose r Z by rw [hlm]]
    exact residual_swap r _ D ⟨r, D.ncols, P⟩ Z g16 g14 (by rw [g9.1, g10]) hP
  have loss : ∀ N : PModel K S, Forall₂ (PSlot.Reset lib ps r m) M1.slots N.slots →
      ∃ y : Nat → List K, (∀ (j : Nat) x, (trainSamples M.hasInputs ps states inputs)[j]? = some x →
          (N.rhs lib x.1 x.2.1 x.2.2).2 = .ok (y j)) ∧
        (∀ j, j < (trainSamples M.hasInputs ps states inputs).length → (y j).length = r ∧
          ((lhs.flatMap fun L => (atleast2d L).2).getD j []).length = r) ∧
        snapshotLoss (trainSamples M.hasInputs ps states inputs).length
          (lhs.flatMap fun L => (atleast2d L).2) y
          = rowLoss D (lhsMat Z) ⟨r, D.ncols, learnedRows r N.slots⟩ := by
    intro N hN
    obtain ⟨-, hv⟩ := key N hN
    have hall : ∀ j, ∃ v, ∀ x, (trainSamples M.hasInputs ps states inputs)[j]? = some x →
        (N.rhs lib x.1 x.2.1 x.2.2).2 = .ok v ∧
        (v.length = r ∧ ((lhs.flatMap fun L => (atleast2d L).2).getD j []).length = r) ∧
        vsub (Z.getD j []) (matVec (learnedRows r N.slots) (D.rows.getD j []))
            = vsub ((lhs.flatMap fun L => (atleast2d L).2).getD j []) v := by
      intro j
      cases hx : (trainSamples M.hasInputs ps states inputs)[j]? with
      | none => exact ⟨[], fun x h => by cases h⟩
      | some x =>
        obtain ⟨v, h1, h2⟩ := hv j x hx
        exact ⟨v, fun x' h => by cases h; exact ⟨h1, h2⟩⟩
    choose y hy using hall
    refine ⟨y, fun j x hx => (hy j x hx).1, fun j hj => (hy j _ (getElem?_eq_getElem hj)).2.1, ?_⟩
    rw [hswap _ (by simp [learnedRows]), snapshotLoss]
    congr 1
    apply map_congr_left
    intro j hj
    rw [(hy j _ (getElem?_eq_getElem (mem_range.mp hj))).2.2]
  have hrows : learnedRows r M'.slots = O.rows := by
    rw [hMs]
    have hlen : O.rows.length = r := by rw [hO.1, hOr]
    apply ext_getElem (by simp [learnedRows, hlen])
    intro i h1 h2
    have hi : i < r := by rw [← hlen]; exact h2
    simp only [learnedRows, getElem_map, getElem_range]
    rw [r2 i hi, drop_zero, getD_eq_getElem _ _ h2]
  have hself : Forall₂ (PSlot.Reset lib ps r m) M1.slots M'.slots := by rw [hMs]; exact r1
  obtain ⟨y, hy1, hy3, hy2⟩ := loss M' hself
  refine ⟨s, D, O, Z, y, g1, hne, hsol, g3, g9, hZwf, hk, hO, by rw [hlm]; exact hOr, hOc, ?_⟩
  intro penalty hmin
  refine ⟨g15, hy1, hy3, ?_, ?_⟩
  · rw [forall₂_same]
    intro s2 hs2
    obtain ⟨s1, -, h⟩ := forall₂_mem_right hself hs2
    exact h.again
  · intro slots'' hs''
    have hN : Forall₂ (PSlot.Reset lib ps r m) M1.slots slots'' := by
      rw [forall₂_iff_get] at hself hs'' ⊢
      refine ⟨hself.1.trans hs''.1, fun i h1 h2 => ?_⟩
      exact (hself.2 i h1 (hself.1 ▸ h1)).trans (hs''.2 i (hself.1 ▸ h1) h2)
    obtain ⟨y', h1, -, h2⟩ := loss { M' with slots := slots'' } hN
    refine ⟨y', h1, ?_⟩
    rw [h2, hy2, hrows]
    have hOO : (⟨r, D.ncols, O.rows⟩ : Mat K) = O := by
      cases O; simp only at hOr hOc; rw [hOr, hOc]
    rw [hOO]
    exact hmin ⟨r, D.ncols, learnedRows r slots''⟩ (key { M' with slots := slots'' } hN).1 hOr.symm hOc.symm

section

variable [Field K] [LinearOrder K] [IsStrictOrderedRing K]

/-- **C85** (`L2Solver`): after a successful `fit` of a parametric model, no other entries of the operators
to infer give a smaller `Σ ‖lhs − model(mu, q, u)‖² + λ²‖O‖²`, the sum over the training samples of all
parameter values and `O` the matrix of the entries. -/
theorem C85_l2 (lib : ItpLib K) (svd : Mat K → Except Err (Svd K))
    (hsvd : ∀ D u, svd D = .ok u → IsSVD D u) (M M' : PModel K (L2 K K)) (hint : M.intrusive = false)
    (ps : List (Par K)) (states lhs : List (Arg K)) (inputs : Option (List (Arg K))) (r m : Nat)
    (hA : PFitArgs lib M ps states lhs inputs r m)
    (hL : ∀ s ∈ M.slots, s.infer = true → s.op.Learnable lib ps)
    (hfit : M.fit lib (l2Solver svd) ps states lhs inputs = (M', .ok ())) :
    ∃ (s : L2 K K) (lam : K) (y : Nat → List K), M.solver = some s ∧ s.reg = some lam ∧
      PFitOptimal lib M' ps (trainSamples M.hasInputs ps states inputs)
        (lhs.flatMap fun L => (atleast2d L).2) r m (fun O => lam ^ 2 * (O.map sumSq).sum) y := by
  obtain ⟨s, D, O, Z, y, c1, hne, c3, c7, c8, hZwf, hk, c10, c11, c12, hopt⟩ :=
    pfit_regression lib _ M M' hint ps states lhs inputs r m hA hL
      (l2Solver_shaped svd (fun D u h => ⟨(hsvd D u h).psiWF, (hsvd D u h).psiCols⟩) r)
      (fun s D => by simp [l2Solver]) hfit
  obtain ⟨lam, hlam, hmin⟩ := l2Solver_optimal svd hsvd s D O Z hne c3 c7 c8 hZwf hk c11 c12
  exact ⟨s, lam, y, c1, hlam, hopt _ hmin⟩

/-- **C85** (`PlainSolver`): no other entries of the operators to infer give a smaller
`Σ ‖lhs − model(mu, q, u)‖²`. -/
theorem C85_plain (lib : ItpLib K) (lstsq : Mat K → Mat K → Except Err (Mat K))
    (hls : ∀ A B X, lstsq A B = .ok X → IsLstsq A B X) (M M' : PModel K (Plain K))
    (hint : M.intrusive = false) (ps : List (Par K)) (states lhs : List (Arg K))
    (inputs : Option (List (Arg K))) (r m : Nat) (hA : PFitArgs lib M ps states lhs inputs r m)
    (hL : ∀ s ∈ M.slots, s.infer = true → s.op.Learnable lib ps)
    (hfit : M.fit lib (plainSolver lstsq) ps states lhs inputs = (M', .ok ())) :
    ∃ y : Nat → List K, PFitOptimal lib M' ps (trainSamples M.hasInputs ps states inputs)
      (lhs.flatMap fun L => (atleast2d L).2) r m (fun _ => 0) y := by
  obtain ⟨s, D, O, Z, y, c1, hne, c3, c7, c8, hZwf, hk, c10, c11, c12, hopt⟩ :=
    pfit_regression lib _ M M' hint ps states lhs inputs r m hA hL
      (plainSolver_shaped lstsq
        (fun A B X h => ⟨(hls A B X h).wf, (hls A B X h).rows, (hls A B X h).cols⟩) r)
      (fun s D => by simp [plainSolver]) hfit
  exact ⟨y, hopt _ (plainSolver_optimal lstsq hls s D O Z hne c3 hZwf hk c11 c12)⟩

/-- **C85** (`TikhonovSolver`), either method: no other entries of the operators to infer give a smaller
`Σ ‖lhs − model(mu, q, u)‖² + ‖Γ Oᵀ‖²`. -/
theorem C85_tikhonov (lib : ItpLib K) (lstsq posSolve : Mat K → Mat K → Except Err (Mat K))
    (hls : ∀ A B X, lstsq A B = .ok X → IsLstsq A B X)
    (hps : ∀ A B X, A.nrows = B.nrows → A.nrows = A.ncols → posSolve A B = .ok X → IsSolution A B X)
    (M M' : PModel K (Tik (Mat K) K)) (hint : M.intrusive = false)
    (hreg : ∀ s ∈ M.solver, ∀ G ∈ s.reg, G.WF) (ps : List (Par K)) (states lhs : List (Arg K))
    (inputs : Option (List (Arg K))) (r m : Nat) (hA : PFitArgs lib M ps states lhs inputs r m)
    (hL : ∀ s ∈ M.slots, s.infer = true → s.op.Learnable lib ps)
    (hfit : M.fit lib (tikSolver lstsq posSolve) ps states lhs inputs = (M', .ok ())) :
    ∃ (s : Tik (Mat K) K) (G : Mat K) (y : Nat → List K), M.solver = some s ∧ s.reg = some G ∧
      PFitOptimal lib M' ps (trainSamples M.hasInputs ps states inputs)
        (lhs.flatMap fun L => (atleast2d L).2) r m
        (fun O => (O.map fun o => sumSq (matVec G.rows o)).sum) y := by
  obtain ⟨s, D, O, Z, y, c1, hne, c3, c7, c8, hZwf, hk, c10, c11, c12, hopt⟩ :=
    pfit_regression lib _ M M' hint ps states lhs inputs r m hA hL
      (tikSolver_shaped lstsq posSolve
        (fun A B X h => ⟨(hls A B X h).wf, (hls A B X h).rows, (hls A B X h).cols⟩)
        (fun A B X e q h => ⟨(hps A B X e q h).wf, (hps A B X e q h).rows.trans q.symm, (hps A B X e q h).cols⟩)
        r)
      (fun s D => by simp [tikSolver]) hfit
  obtain ⟨G, hG, hmin⟩ := tikSolver_optimal lstsq posSolve hls hps s (hreg s c1) D O Z hne c3 c7 c8 hZwf hk
    c11 c12
  exact ⟨s, G, y, c1, hG, hopt _ hmin⟩

omit [LinearOrder K] [IsStrictOrderedRing K] in
theorem eq_of_vsub_zero (a b : List K) (h : a.length = b.length) (h0 : vsub a b = replicate a.length 0) :
    b = a := by
  apply ext_getD_zero h.symm
  intro i
  have : (vsub a b).getD i 0 = 0 := by
    rw [h0]
    by_cases hi : i < a.length
    · rw [getD_eq_getElem _ _ (by simpa using hi)]; simp
    · rw [getD_eq_getElem?_getD, getElem?_eq_none (by simpa using hi)]; rfl
  rw [getD_vsub _ _ h, sub_eq_zero] at this
  exact this.symm

/-- **C85, recovery.** If the left-hand sides of the training data are the right-hand sides of the model
with some other entries of the operators to infer, and training minimises the unpenalised residual, then the
trained model reproduces all left-hand sides. -/
theorem C85_recovers (lib : ItpLib K) (M' : PModel K S) (ps : List (Par K))
    (smp : List (Par K × List K × Option (List K))) (L : List (List K)) (r m : Nat) (y : Nat → List K)
    (h : PFitOptimal lib M' ps smp L r m (fun _ => 0) y) (slots' : List (PSlot K))
    (hs : Forall₂ (PSlot.Reset lib ps r m) M'.slots slots')
    (hgen : ∀ (j : Nat) x l, smp[j]? = some x → L[j]? = some l →
      (PModel.rhs lib { M' with slots := slots' } x.1 x.2.1 x.2.2).2 = .ok l) :
    ∀ (j : Nat) x l, smp[j]? = some x → L[j]? = some l → (M'.rhs lib x.1 x.2.1 x.2.2).2 = .ok l := by
  obtain ⟨y', h1, h2⟩ := h.optimal slots' hs
  have hz : snapshotLoss smp.length L y' = 0 := by
    rw [snapshotLoss]
    apply sum_eq_zero
    intro a ha
    obtain ⟨j, hj, rfl⟩ := mem_map.mp ha
    have hj := mem_range.mp hj
    have hjL : j < L.length := by rw [h.count]; exact hj
    have hg := hgen j _ _ (getElem?_eq_getElem hj) (getElem?_eq_getElem hjL)
    rw [h1 j _ (getElem?_eq_getElem hj)] at hg
    have hg := Except.ok.inj hg
    rw [hg, getD_eq_getElem _ _ hjL]
    simp [vsub, sumSq]
  rw [hz, add_zero, add_zero] at h2
  have h0 : ∀ x ∈ (range smp.length).map fun j => sumSq (vsub (L.getD j []) (y j)), x = 0 := by
    have hnn : ∀ x ∈ (range smp.length).map fun j => sumSq (vsub (L.getD j []) (y j)), 0 ≤ x := by
      intro x hx
      obtain ⟨j, -, rfl⟩ := mem_map.mp hx
      exact sumSq_nonneg _
    exact fun x hx => all_zero_of_le_zero_le_of_sum_eq_zero hnn (le_antisymm h2 (sum_nonneg hnn)) hx
  intro j x l hx hl
  have hj : j < smp.length := (List.getElem?_eq_some_iff.mp hx).1
  have hs0 := h0 _ (mem_map.mpr ⟨j, mem_range.mpr hj, rfl⟩)
  rw [h.output j x hx]
  obtain ⟨l1, l2⟩ := h.lengths j hj
  have hlj : L.getD j [] = l := by rw [getD_eq_getElem?_getD, hl]; rfl
  rw [hlj] at hs0 l2
  have hv := sumSq_eq_zero _ hs0
  rw [length_vsub, l1, l2, Nat.min_self, ← l2] at hv
  rw [eq_of_vsub_zero l (y j) (by rw [l1, l2]) hv]

end

/-! ### Example -/

/-- A scalar model with an affine linear operator to infer, `a(mu) = a₀ + mu a₁`, and a known constant. -/
def pOptEx : PModel ℚ (Plain ℚ) where
  slots := [⟨.aff ⟨.lin, 2, fun mu => .ok (.vec (1 :: mu.toList)), none, none⟩, true⟩,
    ⟨.np ⟨.const, some ⟨1, 1, [[3]]⟩⟩, false⟩]
  hasInputs := false
  r := none
  m := some 0
  intrusive := false
  solver := some ⟨none⟩
  p := none
  s := none

def pOptStates : List (Arg ℚ) := [.mat 1 [[1], [2]], .mat 1 [[1]]]

/-- The values of `(1 + mu) q + 3`. -/
def pOptLhs : List (Arg ℚ) := [.mat 1 [[5], [7]], .mat 1 [[8]]]

/-- Least squares restricted to one problem. -/
def pOptLs (A B : Mat ℚ) : Except Err (Mat ℚ) :=
  if A = ⟨3, 2, [[1, 1], [2, 2], [1, 4]]⟩ ∧ B = ⟨3, 1, [[2], [4], [5]]⟩ then .ok ⟨2, 1, [[1], [1]]⟩
  else .error .linalg

theorem pOptLs_spec (A B X : Mat ℚ) (h : pOptLs A B = .ok X) : IsLstsq A B X := by
  unfold pOptLs at h
  split at h
  · rename_i hc
    obtain ⟨rfl, rfl⟩ := hc
    injection h with h
    subst h
    refine ⟨by decide, rfl, rfl, ?_⟩
    intro j hj
    obtain rfl : j = 0 := by simp at hj; exact hj
    refine ⟨rfl, fun o' _ => ?_⟩
    have : sumSq (vsub (matVec [[1, 1], [2, 2], [1, 4]] (col [[(1 : ℚ)], [1]] 0)) (col [[2], [4], [5]] 0)) = 0 := by
      decide +kernel
    simp only
    rw [this]
    exact sumSq_nonneg _
  · cases h

/-- The hypotheses of `C85_plain` are satisfiable, and the trained model is the generating one. -/
example : PFitArgs toyLib pOptEx pExPars pOptStates pOptLhs none 1 0 ∧
    (∀ s ∈ pOptEx.slots, s.infer = true → s.op.Learnable toyLib pExPars) ∧
    (pOptEx.fit toyLib (plainSolver pOptLs) pExPars pOptStates pOptLhs none).2 = .ok () ∧
    learnedRows 1 (pOptEx.fit toyLib (plainSolver pOptLs) pExPars pOptStates pOptLhs none).1.slots
      = [[1, 1]] := by
  refine ⟨⟨by simp [pExPars], by simp [pOptEx], ?_, ?_, by simp, by decide, ?_, by simp [pOptEx], by simp, ?_, ?_⟩,
    ?_, by decide +kernel, by decide +kernel⟩
  · intro a ha
    simp only [pOptStates, mem_cons, not_mem_nil, or_false] at ha
    rcases ha with rfl | rfl <;> simp [Arg.WF, atleast2d]
  · intro a ha
    simp only [pOptLhs, mem_cons, not_mem_nil, or_false] at ha
    rcases ha with rfl | rfl <;> simp [Arg.WF, atleast2d]
  · intro a ha
    simp only [pOptStates, mem_cons, not_mem_nil, or_false] at ha
    rcases ha with rfl | rfl <;> rfl
  · intro o ho
    simp only [PModel.ops, pOptEx, map_cons, map_nil, mem_cons, not_mem_nil, or_false] at ho
    rcases ho with rfl | rfl <;> simp [POp.kind, OpKind.hasInputs]
  · intro s hs hi mu _
    simp only [pOptEx, mem_cons, not_mem_nil, or_false] at hs
    rcases hs with rfl | rfl
    · simp at hi
    · exact ⟨⟨.const, some ⟨1, 1, [[3]]⟩⟩, rfl, rfl, _, rfl, ⟨rfl, by decide⟩, rfl, rfl⟩
  · intro s hs hi
    simp only [pOptEx, mem_cons, not_mem_nil, or_false] at hs
    rcases hs with rfl | rfl
    · exact ⟨by decide, fun mu hmu => ⟨_, rfl, by
        simp only [pExPars, mem_cons, not_mem_nil, or_false] at hmu
        rcases hmu with rfl | rfl <;> rfl⟩⟩
    · simp at hi

end Opinf
