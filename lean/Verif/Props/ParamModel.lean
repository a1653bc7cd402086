import Verif.Lemmas.ParamResidual
import Verif.Props.Fit
import Verif.Props.Interp

/-!
# C58: parametric models evaluate consistently and fit the stated regression
-/

namespace Opinf

open List

variable {K S : Type}

/-- **C58, evaluation.** If every operator of the model is defined at `mu`, then `evaluate(mu)` gives a
model `N` whose operators are the evaluated operators, `rhs(mu, q, u)` is the right-hand side of `N` at
`(q, u)`, and it is the sum of the operators of the parametric model, each applied at `(mu, q, u)`. -/
theorem C58_rhs [CommSemiring K] (lib : ItpLib K) (M : PModel K S) (mu : Par K) (r m : Nat) (hr : 0 < r)
    (hne : M.slots ≠ []) (h : ∀ o ∈ M.ops, ∃ op, o.EvalsTo lib mu r m op) (q : List K)
    (u : Option (List K)) (hq : q.length = r) (hu : ∀ o ∈ M.ops, InputOK o.kind m u) :
    ∃ N y, (M.evaluate lib mu).2 = .ok N ∧
      Forall₂ (fun o op => (POp.evaluate lib o mu).2 = .ok op) M.ops N.ops ∧
      N.r = some r ∧ N.hasInputs = N.ops.any (·.kind.hasInputs) ∧
      (M.rhs lib mu q u).2 = .ok y ∧ N.rhs q u = .ok y ∧ SumAt lib M.ops mu q u r y := by
  obtain ⟨N, ops, h1, rfl, h3, -, h5, h6, h7, h8⟩ := M.rhs_sum lib mu r m hr hne h q u hq hu
  exact ⟨N, _, h1, h6.imp fun _ _ h => h.1, h3, h5, h8, h7 ▸ h8, SumAt.of_evals h q u hq hu⟩

/-- **C58, the other methods.** `rhs`, `jacobian` and `predict` of a parametric model are those of
`evaluate(mu)`, for every model, also when they raise; they leave the same object behind as
`evaluate(mu)`. -/
theorem C58_methods [Field K] (lib : ItpLib K) (M : PModel K S) (mu : Par K) :
    (∀ N, (M.evaluate lib mu).2 = .ok N →
      (∀ q u, (M.rhs lib mu q u).2 = N.rhs q u) ∧
      (∀ q u, (M.jacobian lib mu q u).2 = N.jacobian q u) ∧
      ∀ q0 n i, (M.predict lib mu q0 n i).2 = N.predict q0 n i) ∧
    (∀ e, (M.evaluate lib mu).2 = .error e →
      (∀ q u, (M.rhs lib mu q u).2 = .error e) ∧
      (∀ q u, (M.jacobian lib mu q u).2 = .error e) ∧
      ∀ q0 n i, (M.predict lib mu q0 n i).2 = .error e) ∧
    (∀ q u, (M.rhs lib mu q u).1 = (M.evaluate lib mu).1) ∧
    (∀ q u, (M.jacobian lib mu q u).1 = (M.evaluate lib mu).1) ∧
    ∀ q0 n i, (M.predict lib mu q0 n i).1 = (M.evaluate lib mu).1 := by
  refine ⟨fun N hN => ⟨fun q u => ?_, fun q u => ?_, fun q0 n i => ?_⟩,
    fun e he => ⟨fun q u => ?_, fun q u => ?_, fun q0 n i => ?_⟩,
    fun q u => rfl, fun q u => rfl, fun q0 n i => rfl⟩
  · simp only [PModel.rhs, hN]
  · simp only [PModel.jacobian, hN]
  · simp only [PModel.predict, hN]
  · simp only [PModel.rhs, he]
  · simp only [PModel.jacobian, he]
  · simp only [PModel.predict, he]

/-- **C58, the parametric regression.** If the solver of a parametric model has been fitted, with `D` and
`Z` what it was given, then for every solution `O` (an `r × d` matrix, `D` being `k × d`) of a solver with
which the model is then refitted successfully: the right-hand side `y` of the refitted model on the `j`-th
training sample `(mu, q, u)` is `O` times the `j`-th row of `D` plus the contribution `w` of the known
operators at that sample; the `j`-th column of `Z` is the given left-hand side minus `w`; so the residual of
the regression is the residual of the model. -/
theorem C58_fit [Field K] [LinearOrder K] (lib : ItpLib K) (I : SolverI K S) (M M1 : PModel K S)
    (hint : M.intrusive = false) (ps : List (Par K)) (states lhs : List (Arg K))
    (inputs : Option (List (Arg K))) (r m : Nat) (hA : PFitArgs lib M ps states lhs inputs r m)
    (hL : ∀ s ∈ M.slots, s.infer = true → s.op.Learnable lib ps)
    (hfit : M.fitSolver lib I ps states lhs inputs = (M1, .ok ())) :
    ∃ (s : S) (D : Mat K) (Z : List (List K)),
      M.solver = some s ∧ M1.solver = some (I.fit s D Z).1 ∧ (I.fit s D Z).2 = .ok () ∧ D.WF ∧
      D.nrows = (trainSamples M.hasInputs ps states inputs).length ∧
      Z.length = (trainSamples M.hasInputs ps states inputs).length ∧
      (lhs.flatMap fun L => (atleast2d L).2).length = (trainSamples M.hasInputs ps states inputs).length ∧
      (∀ z ∈ Z, z.length = r) ∧
      ∀ (s' : S) (O : Mat K) (M' : PModel K S), I.solve s' = .ok O → O.WF → O.nrows = r →
        O.ncols = D.ncols → PModel.refit lib I { M1 with solver := some s' } = (M', .ok ()) →
        (∀ mu ∈ ps, ∀ o ∈ M'.ops, ∃ op, o.EvalsTo lib mu r m op) ∧
        ∀ (j : Nat) y, (trainSamples M.hasInputs ps states inputs)[j]? = some y →
          ∃ d l z v w, D.rows[j]? = some d ∧ (lhs.flatMap fun L => (atleast2d L).2)[j]? = some l ∧
            Z[j]? = some z ∧ (M'.rhs lib y.1 y.2.1 y.2.2).2 = .ok v ∧
            SumAt lib M.known y.1 y.2.1 y.2.2 r w ∧
            z = vsub l w ∧ v = vadd (matVec O.rows d) w ∧ vsub z (matVec O.rows d) = vsub l v := by
  obtain ⟨s, D, Z, bs, d, g1, g2, g3, g4, g5, g6, g7, g8, g9, g10, g11, g12, g13, g14, g15, g16, g17, g18,
    g19, g20⟩ := pfit_master lib I M M1 ps states lhs inputs r m hA hL hfit
  refine ⟨s, D, Z, g1, g2, g3, g9, g10, g14, g15, g16, ?_⟩
  intro s' O M' hsolve hO hOr hOc hrefit
  rw [PModel.refit, if_neg (by simp [g7, hint])] at hrefit
  simp only [hsolve, g6, g4, g5, Option.getD_some, Prod.mk.injEq] at hrefit
  obtain ⟨hM', hok⟩ := hrefit
  rcases hex : pExtract lib ps.length r m O 0 M1.slots with ⟨slots', x⟩
  rw [hex] at hok hM'
  simp only at hok hM'
  subst hok
  obtain ⟨e1, e2⟩ := pExtract_spec lib r m ps.length ps _ O hO hOr M1.slots slots' 0 bs
    (g13.imp fun _ _ h => h.2.2 _ (.refl _) h.1)
    (by rw [hOc, g11]; simp) hex
  have hMs : M'.slots = slots' := by rw [← hM']
  -- every operator of the new model is defined at the training parameters
  have hcomb : Forall₂ (fun s s' : PSlot K => s'.infer = s.infer ∧ s'.op.kind = s.op.kind ∧
      (s.infer = false → ∀ mu ∈ ps, ∀ op, s.op.EvalsTo lib mu r m op → s'.op.EvalsTo lib mu r m op) ∧
      (s.infer = true → ∀ mu ∈ ps, ∃ op, s'.op.EvalsTo lib mu r m op)) M.slots slots' := by
    rw [forall₂_iff_get] at g19 e1 ⊢
    refine ⟨g19.1.trans e1.1, fun i h1 h2 => ?_⟩
    obtain ⟨a1, a2, a3⟩ := g19.2 i h1 (g19.1 ▸ h1)
    obtain ⟨b1, b2, b3, b4⟩ := e1.2 i (g19.1 ▸ h1) h2
    refine ⟨b1.trans a1, b2.trans a2, ?_, ?_⟩
    · intro hi
      have := b3 (a1.trans hi)
      rw [this]
      exact a3 hi
    · intro hi
      exact b4 (a1.trans hi)
  exact pResidual lib M M' ps states lhs inputs r m hA D Z bs g10 g12 g16 g18 g20 O hO hOr
    (by rw [hMs]; exact hcomb) (by
      intro j y hy i hi
      have := e2 j y hy i hi
      rw [drop_zero] at this
      rw [hMs]
      exact this)

/-- **C58, `fit`.** After a successful `fit` of a parametric model with some operator to infer, with `D` and
`Z` what the solver was given and `O` its solution: on the `j`-th training sample `(mu, q, u)`, the residual
`Z_j - O D_j` of the regression is the residual `lhs_j - rhs(mu, q, u)` of the fitted model. -/
theorem C58_fit_residual [Field K] [LinearOrder K] (lib : ItpLib K) (I : SolverI K S) (M M' : PModel K S)
    (hint : M.intrusive = false) (ps : List (Par K)) (states lhs : List (Arg K))
    (inputs : Option (List (Arg K))) (r m : Nat) (hA : PFitArgs lib M ps states lhs inputs r m)
    (hL : ∀ s ∈ M.slots, s.infer = true → s.op.Learnable lib ps) (hI : I.Shaped r)
    (hfit : M.fit lib I ps states lhs inputs = (M', .ok ())) :
    ∃ (s : S) (D O : Mat K) (Z : List (List K)),
      M.solver = some s ∧ (I.fit s D Z).2 = .ok () ∧ I.solve (I.fit s D Z).1 = .ok O ∧ D.WF ∧ O.WF ∧
      O.nrows = r ∧ O.ncols = D.ncols ∧
      D.nrows = (trainSamples M.hasInputs ps states inputs).length ∧
      Z.length = (trainSamples M.hasInputs ps states inputs).length ∧
      (lhs.flatMap fun L => (atleast2d L).2).length = (trainSamples M.hasInputs ps states inputs).length ∧
      ∀ (j : Nat) y, (trainSamples M.hasInputs ps states inputs)[j]? = some y →
        ∃ d l z v, D.rows[j]? = some d ∧ (lhs.flatMap fun L => (atleast2d L).2)[j]? = some l ∧
          Z[j]? = some z ∧ (M'.rhs lib y.1 y.2.1 y.2.2).2 = .ok v ∧
          vsub z (matVec O.rows d) = vsub l v := by
  rw [PModel.fit, if_neg (by simp [hint])] at hfit
  rcases hfs : M.fitSolver lib I ps states lhs inputs with ⟨M1, x⟩
  rw [hfs] at hfit
  cases x with
  | error e => simp at hfit
  | ok u =>
  simp only at hfit
  obtain ⟨s, D, Z, g1, g2, g3, g4, g5, g6, g7, g8, g9⟩ :=
    C58_fit lib I M M1 hint ps states lhs inputs r m hA hL hfs
  obtain ⟨O, hO⟩ : ∃ O, I.solve (I.fit s D Z).1 = .ok O := by
    cases hs : I.solve (I.fit s D Z).1 with
    | ok O => exact ⟨O, rfl⟩
    | error e =>
      exfalso
      unfold PModel.refit at hfit
      split at hfit
      · rename_i hi
        obtain ⟨-, -, -, -, -, -, -, -, -, -, -, h7, -⟩ := pfit_master lib I M M1 ps states lhs inputs r m hA hL hfs
        rw [h7, hint] at hi
        exact absurd hi (by simp)
      · rw [g2] at hfit
        simp [hs] at hfit
  obtain ⟨o1, o2, o3⟩ := hI s D Z O g8 g3 hO
  have hM1 : ({ M1 with solver := some (I.fit s D Z).1 } : PModel K S) = M1 := by rw [← g2]
  obtain ⟨-, h2⟩ := g9 _ O M' hO o1 o2 o3 (by rw [hM1]; exact hfit)
  refine ⟨s, D, O, Z, g1, g3, hO, g4, o1, o2, o3, g5, g6, g7, fun j y hy => ?_⟩
  obtain ⟨d, l, z, v, w, a1, a2, a3, a4, -, -, -, a8⟩ := h2 j y hy
  exact ⟨d, l, z, v, a1, a2, a3, a4, a8⟩

/-- **C58, `fit`.** After a successful `fit` the operators are of the same kinds in the same order, and all of them
can be evaluated at every training parameter, so that `rhs` is defined there for every state (and input). -/
theorem C58_fit_usable [Field K] [LinearOrder K] (lib : ItpLib K) (I : SolverI K S) (M M' : PModel K S)
    (hint : M.intrusive = false) (ps : List (Par K)) (states lhs : List (Arg K))
    (inputs : Option (List (Arg K))) (r m : Nat) (hA : PFitArgs lib M ps states lhs inputs r m)
    (hL : ∀ s ∈ M.slots, s.infer = true → s.op.Learnable lib ps) (hI : I.Shaped r)
    (hfit : M.fit lib I ps states lhs inputs = (M', .ok ())) :
    Forall₂ (fun o o' => o'.kind = o.kind) M.ops M'.ops ∧
    (∀ mu ∈ ps, ∀ o ∈ M'.ops, ∃ op, o.EvalsTo lib mu r m op) ∧
    ∀ mu ∈ ps, ∀ q u, q.length = r → (∀ o ∈ M.ops, InputOK o.kind m u) →
      ∃ y, (M'.rhs lib mu q u).2 = .ok y ∧ y.length = r := by
  rw [PModel.fit, if_neg (by simp [hint])] at hfit
  rcases hfs : M.fitSolver lib I ps states lhs inputs with ⟨M1, x⟩
  rw [hfs] at hfit
  cases x with
  | error e => simp at hfit
  | ok u =>
  simp only at hfit
  obtain ⟨s, D, Z, bs, d, g1, g2, g3, g4, g5, g6, g7, g8, g9, g10, g11, g12, g13, g14, g15, g16, g17, g18,
    g19, g20⟩ := pfit_master lib I M M1 ps states lhs inputs r m hA hL hfs
  rw [PModel.refit, if_neg (by simp [g7, hint]), g2] at hfit
  simp only at hfit
  cases hsol : I.solve (I.fit s D Z).1 with
  | error e => rw [hsol] at hfit; simp at hfit
  | ok O =>
  rw [hsol] at hfit
  simp only [g6, g4, g5, Option.getD_some, Prod.mk.injEq] at hfit
  obtain ⟨hM', hok⟩ := hfit
  rcases hex : pExtract lib ps.length r m O 0 M1.slots with ⟨slots', x⟩
  rw [hex] at hok hM'
  simp only at hok hM'
  subst hok
  have hMs : M'.slots = slots' := by rw [← hM']
  obtain ⟨hO, hOr, hOc⟩ := hI s D Z O g16 g3 hsol
  obtain ⟨e1, -⟩ := pExtract_spec lib r m ps.length ps _ O hO hOr M1.slots slots' 0 bs
    (g13.imp fun _ _ h => h.2.2 _ (.refl _) h.1)
    (by rw [hOc, g11]; simp) hex
  have hk : Forall₂ (fun o o' : POp K => o'.kind = o.kind) M.ops M'.ops := by
    rw [PModel.ops, PModel.ops, forall₂_map_left_iff, forall₂_map_right_iff, hMs]
    rw [forall₂_iff_get] at g19 e1 ⊢
    refine ⟨g19.1.trans e1.1, fun i h1 h2 => ?_⟩
    obtain ⟨a1, a2, a3⟩ := g19.2 i h1 (g19.1 ▸ h1)
    obtain ⟨b1, b2, b3, b4⟩ := e1.2 i (g19.1 ▸ h1) h2
    exact b2.trans a2
  have hev : ∀ mu ∈ ps, ∀ o ∈ M'.ops, ∃ op, o.EvalsTo lib mu r m op := by
    intro mu hmu o ho
    rw [PModel.ops, hMs] at ho
    obtain ⟨s', hs', rfl⟩ := mem_map.mp ho
    obtain ⟨i, h2, rfl⟩ := getElem_of_mem hs'
    rw [forall₂_iff_get] at g19 e1
    have h1 : i < M.slots.length := by rw [g19.1, e1.1]; exact h2
    obtain ⟨a1, a2, a3⟩ := g19.2 i h1 (g19.1 ▸ h1)
    obtain ⟨b1, b2, b3, b4⟩ := e1.2 i (g19.1 ▸ h1) h2
    simp only [get_eq_getElem] at a1 a2 a3 b1 b2 b3 b4
    cases hi : M.slots[i].infer with
    | true => exact b4 (a1.trans hi) mu hmu
    | false =>
      rw [b3 (a1.trans hi)]
      obtain ⟨op, hop⟩ := hA.known _ (getElem_mem h1) hi mu hmu
      exact ⟨op, a3 hi mu hmu op hop⟩
  refine ⟨hk, hev, ?_⟩
  intro mu hmu q u hq hu
  have hne : M'.slots ≠ [] := by
    intro h0
    rw [PModel.ops, PModel.ops, h0] at hk
    exact hA.slots_ne (map_eq_nil_iff.mp (forall₂_nil_right_iff.mp hk))
  have hu' : ∀ o ∈ M'.ops, InputOK o.kind m u := by
    intro o' ho'
    obtain ⟨o, ho, hoo⟩ := forall₂_mem_right hk ho'
    rw [hoo]
    exact hu o ho
  obtain ⟨N, y, -, -, -, -, h1, -, ws, h2, rfl⟩ := C58_rhs lib M' mu r m hA.r_pos hne (hev mu hmu) q u hq hu'
  refine ⟨_, h1, ?_⟩
  rw [length_foldl_vadd _ _ (fun w hw => ?_)]
  · simp
  · obtain ⟨o, -, ho⟩ := forall₂_mem_right h2 hw
    rw [ho.2, length_replicate]

/-! ### C67: known interpolated operators -/

/-- The parameter values that `fit` accepts make an array. -/
theorem ofPars_of_paramsDim {ps : List (Par K)} {d : Nat} (hne : ps ≠ []) (h : paramsDim ps = .ok d) :
    ∃ P, PArr.ofPars ps = .ok P := by
  cases ps with
  | nil => exact absurd rfl hne
  | cons mu ps =>
    simp only [paramsDim] at h
    split at h
    · cases h
    · rename_i hn
      simp only [PArr.ofPars]
      rw [if_neg hn]
      split
      · exact ⟨_, rfl⟩
      · split <;> exact ⟨_, rfl⟩

theorem setAllParams_known (ps : List (Par K)) (P : PArr K) (hP : PArr.ofPars ps = .ok P)
    (slots : List (PSlot K)) (h : ∃ s ∈ slots, ∃ t, s.op = .itp t ∧ t.itp.isSome = true) :
    (setAllParams ps slots).2 = .error .attribute := by
  induction slots with
  | nil => simp at h
  | cons s ss ih =>
    unfold setAllParams
    cases ho : s.op with
    | itp t =>
      simp only
      cases hi : t.itp.isSome with
      | true => simp [Interp.setParams, hi]
      | false =>
        simp only [Interp.setParams, hi, hP, Bool.false_eq_true, if_false]
        apply ih
        obtain ⟨s', hs', t', h1, h2⟩ := h
        rcases mem_cons.mp hs' with rfl | hs'
        · rw [ho, POp.itp.injEq] at h1; subst h1; rw [hi] at h2; cases h2
        · exact ⟨s', hs', t', h1, h2⟩
    | np o =>
      simp only
      apply ih
      obtain ⟨s', hs', t', h1, h2⟩ := h
      rcases mem_cons.mp hs' with rfl | hs'
      · rw [ho] at h1; cases h1
      · exact ⟨s', hs', t', h1, h2⟩
    | aff a =>
      simp only
      apply ih
      obtain ⟨s', hs', t', h1, h2⟩ := h
      rcases mem_cons.mp hs' with rfl | hs'
      · rw [ho] at h1; cases h1
      · exact ⟨s', hs', t', h1, h2⟩

/-- **C67 (negation).** A parametric model with operators to infer and with a known interpolated operator
(one that has its interpolator) cannot be fitted: for every data set and every solver, if the arguments are
accepted, `fit` raises `AttributeError`; it never succeeds. -/
theorem C67_known_interpolated [Field K] [LinearOrder K] (lib : ItpLib K) (I : SolverI K S)
    (M : PModel K S) (hint : M.intrusive = false) (sl : PSlot K) (hsl : sl ∈ M.slots)
    (hk : sl.infer = false) (t : Interp K) (ht : sl.op = .itp t) (hitp : t.itp.isSome = true)
    (ps : List (Par K)) (hne : ps ≠ []) (states lhs : List (Arg K)) (inputs : Option (List (Arg K))) :
    (M.fit lib I ps states lhs inputs).2 ≠ .ok () ∧
    (∀ x, (M.processFitArgs lib ps states lhs inputs).2 = .ok x →
      (M.fit lib I ps states lhs inputs).2 = .error .attribute) := by
  have key : ∀ x, (M.processFitArgs lib ps states lhs inputs).2 = .ok x →
      (M.fit lib I ps states lhs inputs).2 = .error .attribute := by
    intro x hx
    rcases hp : M.processFitArgs lib ps states lhs inputs with ⟨M1, y⟩
    rw [hp] at hx
    simp only at hx
    subst hx
    obtain ⟨data, Z⟩ := x
    obtain ⟨d, U, h1, h2, -⟩ := process_inv lib M M1 ps states lhs inputs data Z hp
    obtain ⟨P, hP⟩ := ofPars_of_paramsDim hne h1
    have hbad := setAllParams_known ps P hP M1.slots ⟨prepSlot d sl, by
      rw [h2]; exact mem_map_of_mem hsl, by
      simp only [prepSlot, hk, Bool.false_eq_true, if_false, ht, POp.fill]
      split
      · exact ⟨_, rfl, hitp⟩
      · exact ⟨_, rfl, hitp⟩⟩
    rw [PModel.fit, if_neg (by simp [hint]), PModel.fitSolver, hp]
    simp only
    rcases hs : setAllParams ps M1.slots with ⟨slots, z⟩
    rw [hs] at hbad
    simp only at hbad
    subst hbad
    rfl
  refine ⟨fun h => ?_, key⟩
  rcases hp : M.processFitArgs lib ps states lhs inputs with ⟨M1, y⟩
  cases y with
  | error e =>
    rw [PModel.fit, if_neg (by simp [hint]), PModel.fitSolver, hp] at h
    simp at h
  | ok x =>
    rw [key x (by rw [hp])] at h
    cases h

/-! ### Examples -/

/-- A model with an affine linear operator to infer, `A(mu) = A₀ + mu A₁`, and a known constant operator. -/
def pEx : PModel ℚ (Option (Nat × Nat)) where
  slots := [⟨.aff ⟨.lin, 2, fun mu => .ok (.vec (1 :: mu.toList)), none, none⟩, true⟩,
    ⟨.np ⟨.const, some ⟨2, 1, [[3], [5]]⟩⟩, false⟩]
  hasInputs := false
  r := some 2
  m := some 0
  intrusive := false
  solver := some none
  p := none
  s := none

def pExPars : List (Par ℚ) := [.scalar 1, .scalar 4]
def pExStates : List (Arg ℚ) := [.mat 2 [[1, 2], [3, 4]], .mat 2 [[5, 7]]]
def pExLhs : List (Arg ℚ) := [.mat 2 [[1, 0], [0, 1]], .mat 2 [[2, 2]]]

/-- The hypotheses of `C58_fit_residual` are satisfiable. -/
example : PFitArgs toyLib pEx pExPars pExStates pExLhs none 2 0 ∧
    (∀ s ∈ pEx.slots, s.infer = true → s.op.Learnable toyLib pExPars) ∧ exSolver.Shaped 2 ∧
    (pEx.fit toyLib exSolver pExPars pExStates pExLhs none).2 = .ok () := by
  refine ⟨⟨by simp [pExPars], by simp [pEx], ?_, ?_, by simp, by decide, ?_, by simp [pEx], by simp, ?_, ?_⟩,
    ?_, exSolver_shaped 2, by decide +kernel⟩
  · intro a ha
    simp only [pExStates, mem_cons, not_mem_nil, or_false] at ha
    rcases ha with rfl | rfl <;> simp [Arg.WF, atleast2d]
  · intro a ha
    simp only [pExLhs, mem_cons, not_mem_nil, or_false] at ha
    rcases ha with rfl | rfl <;> simp [Arg.WF, atleast2d]
  · intro a ha
    simp only [pExStates, mem_cons, not_mem_nil, or_false] at ha
    rcases ha with rfl | rfl <;> rfl
  · intro o ho
    simp only [PModel.ops, pEx, map_cons, map_nil, mem_cons, not_mem_nil, or_false] at ho
    rcases ho with rfl | rfl <;> simp [POp.kind, OpKind.hasInputs]
  · intro s hs hi mu _
    simp only [pEx, mem_cons, not_mem_nil, or_false] at hs
    rcases hs with rfl | rfl
    · simp at hi
    · exact ⟨⟨.const, some ⟨2, 1, [[3], [5]]⟩⟩, rfl, rfl, _, rfl, ⟨rfl, by decide⟩, rfl, rfl⟩
  · intro s hs hi
    simp only [pEx, mem_cons, not_mem_nil, or_false] at hs
    rcases hs with rfl | rfl
    · exact ⟨by decide, fun mu hmu => ⟨_, rfl, by
        simp only [pExPars, mem_cons, not_mem_nil, or_false] at hmu
        rcases hmu with rfl | rfl <;> rfl⟩⟩
    · simp at hi

-- the data matrix has the columns `q` and `mu q`
example : (match pEx.processFitArgs toyLib pExPars pExStates pExLhs none with
    | (M, .ok (data, _)) => (M.dataMatrix data).map Mat.rows
    | (_, .error e) => .error e) = .ok [[1, 2, 1, 2], [3, 4, 3, 4], [5, 7, 20, 28]] := by decide +kernel

/-- A linear operator interpolated between the parameters 1 and 4. -/
def pExItp : Interp ℚ := ⟨.lin, some (.one [1, 4]), some 1, some [⟨2, 2, [[1, 0], [0, 1]]⟩, ⟨2, 2, [[2, 0], [0, 2]]⟩],
  some .cubic, some (.cubic, .one [1, 4], [⟨2, 2, [[1, 0], [0, 1]]⟩, ⟨2, 2, [[2, 0], [0, 2]]⟩])⟩

/-- **C67 (concrete witness).** With this operator known and a constant operator to infer, the model is
constructed, all arguments are accepted, and `fit` raises `AttributeError`. -/
theorem C67_witness :
    (match PModel.construct [POp.itp pExItp, .np ⟨.const, none⟩] (none : Option (Nat × Nat)) with
      | .ok M => ((M.processFitArgs toyLib pExPars pExStates pExLhs none).2.isOk,
          (M.fit toyLib exSolver pExPars pExStates pExLhs none).2)
      | .error e => (false, .error e)) = (true, .error .attribute) := by decide +kernel

end Opinf
