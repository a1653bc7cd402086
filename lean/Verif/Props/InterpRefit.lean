import Verif.Props.InterpModel

/-!
# C68: fitting an interpolatory model again
-/

namespace Opinf

open List

variable {K S : Type}

/-- What a successful `fit` of an interpolatory model leaves behind. -/
theorem ifit_inv [Field K] [LinearOrder K] (lib : ItpLib K) (plain : S) (l2 : Int → S)
    (I : SolverI K S) (M M' : IModel K S) (hint : M.base.intrusive = false) (ps : List (Par K))
    (states lhs : List (Arg K)) (inputs : Option (List (Arg K)))
    (hfit : M.fit lib plain l2 I ps states lhs inputs = (M', .ok ())) :
    ∃ d Ns, reinterpolateAll lib ps Ns 0 (M.base.slots.map (prepSlot d)) = (M'.base.slots, .ok ()) ∧
      M'.subs = some Ns ∧ M'.tparams = ps ∧ M'.base.intrusive = false := by
  rw [IModel.fit, if_neg (by simp [hint]), IModel.fitSolver] at hfit
  rcases hp : M.base.processFitArgs lib ps states lhs inputs with ⟨B, x⟩
  rw [hp] at hfit
  cases x with
  | error e => simp at hfit
  | ok t =>
  obtain ⟨data, Z⟩ := t
  obtain ⟨d, U, f1, f2, -, -, f3, -⟩ := process_inv lib M.base B ps states lhs inputs data Z hp
  simp only at hfit
  cases hsol : B.solver with
  | none => rw [hsol] at hfit; simp at hfit
  | some s =>
  rw [hsol] at hfit
  simp only at hfit
  cases hsubs : fitSubs plain l2 I B s 0 data Z with
  | error e => rw [hsubs] at hfit; simp at hfit
  | ok Ns =>
  rw [hsubs] at hfit
  simp only [IModel.refit] at hfit
  rcases hrs : refitSubs I Ns with ⟨Ns', x⟩
  rw [hrs] at hfit
  cases x with
  | error e => simp at hfit
  | ok u =>
  simp only [Prod.mk.injEq] at hfit
  obtain ⟨hM', hok⟩ := hfit
  rw [f2] at hM' hok
  refine ⟨d, Ns', ?_, by rw [← hM'], by rw [← hM'], by rw [← hM']; exact f3.trans hint⟩
  rw [← hM']
  exact Prod.ext rfl hok

theorem prepSlot_itp (d : Nat) (s : PSlot K) (t : Interp K) (h : s.op = .itp t) :
    ∃ t', (prepSlot d s).op = .itp t' ∧ t'.cls = t.cls := by
  cases hinf : s.infer with
  | true => exact ⟨{ t.clear with p := some d }, by
      simp [prepSlot, hinf, h, POp.clear, POp.fill, Interp.clear], rfl⟩
  | false =>
    simp only [prepSlot, hinf, h, Bool.false_eq_true, if_false, POp.fill]
    split
    · exact ⟨_, rfl, rfl⟩
    · exact ⟨_, rfl, rfl⟩

/-- The class used for an operator that is interpolated again: the remembered one, or the default. -/
theorem reinterpolate_cls [AddMonoid K] [LinearOrder K] (lib : ItpLib K) (ps : List (Par K)) (xs : List K)
    (hP : PArr.ofPars ps = .ok (.one xs)) (Ns : List (Model K S)) (ell : Nat) (t : Interp K) (o : POp K)
    (h : reinterpolate lib ps Ns ell (.itp t) = (o, .ok ())) :
    (t.cls = none → ∃ t', o = .itp t' ∧ t'.cls = some .cubic) ∧
    (∀ c, t.cls = some c → (∃ t', o = .itp t' ∧ t'.cls = some c) ∧ ∃ As, lib.build c (.one xs) As = .ok ()) := by
  simp only [reinterpolate] at h
  cases hsp : t.clear.setParams ps with
  | error e => rw [hsp] at h; simp at h
  | ok t2 =>
  rw [hsp] at h
  simp only at h
  obtain ⟨-, P, hP', rfl⟩ := setParams_ok hsp
  rw [hP, Except.ok.injEq] at hP'
  subst hP'
  cases hse : subEntries ell Ns with
  | error e => rw [hse] at h; simp at h
  | ok As =>
  rw [hse] at h
  simp only [Prod.mk.injEq] at h
  obtain ⟨h1, h2⟩ := h
  simp only [Interp.setEntries] at h1 h2
  cases hpe : parseEntries t.kind (PArr.one xs).length (.list As) with
  | error e => simp only [Interp.clear, hpe] at h2; cases h2
  | ok Bs =>
  simp only [Interp.clear, hpe, Interp.setInterpolator] at h1 h2
  cases hb : lib.build (itpData t.cls (.one xs) Bs).1 (itpData t.cls (.one xs) Bs).2.1
      (itpData t.cls (.one xs) Bs).2.2 with
  | error e => rw [hb] at h2; cases h2
  | ok u =>
    rw [hb] at h1
    simp only at h1
    constructor
    · intro hc
      exact ⟨_, h1.symm, by rw [hc]; rfl⟩
    · intro c hc
      refine ⟨⟨_, h1.symm, by rw [hc]; rfl⟩, Bs, ?_⟩
      rw [hc] at hb
      exact hb

/-- **C68 (negation).** Let an interpolatory model with default interpolators and some operator to infer be
fitted successfully with scalar training parameters `xs` that are not in increasing order. Then no further
`fit` with the same parameter values succeeds, whatever the data and the solver, and neither does `refit`. -/
theorem C68_unsorted_second_fit [Field K] [LinearOrder K] (lib : ItpLib K) (hlib : lib.Contract) (plain : S)
    (l2 : Int → S) (I : SolverI K S) (M M' : IModel K S) (hint : M.base.intrusive = false)
    (ps : List (Par K)) (states lhs : List (Arg K)) (inputs : Option (List (Arg K))) (xs : List K)
    (hP : PArr.ofPars ps = .ok (.one xs)) (hxs : ¬ xs.Pairwise (· < ·))
    (hop : ∃ s ∈ M.base.slots, ∃ t, s.op = .itp t ∧ t.cls = none)
    (hfit : M.fit lib plain l2 I ps states lhs inputs = (M', .ok ())) :
    (∀ (I' : SolverI K S) states' lhs' inputs',
      (M'.fit lib plain l2 I' ps states' lhs' inputs').2 ≠ .ok ()) ∧
    ∀ I' : SolverI K S, (M'.refit lib I').2 ≠ .ok () := by
  obtain ⟨d, Ns, h1, h2, h3, h4⟩ := ifit_inv lib plain l2 I M M' hint ps states lhs inputs hfit
  obtain ⟨q1, q2⟩ := reinterpolateAll_ok lib ps Ns 0 _ _ h1
  obtain ⟨s, hs, t, ht, hc⟩ := hop
  obtain ⟨k, hk, rfl⟩ := mem_iff_getElem.mp hs
  obtain ⟨t1, ht1, hc1⟩ := prepSlot_itp d _ t ht
  obtain ⟨o, b1, b2⟩ := q2 k (prepSlot d M.base.slots[k]) (by rw [getElem?_map, getElem?_eq_getElem hk]; rfl)
  rw [ht1] at b2
  obtain ⟨t2, rfl, hc2⟩ := (reinterpolate_cls lib ps xs hP Ns _ t1 o b2).1 (hc1.trans hc)
  -- an operator that remembers the class cannot be interpolated again
  have hbad : ∀ (slots slots' : List (PSlot K)) (Ns : List (Model K S)) (s : PSlot K) (t : Interp K),
      slots[k]? = some s → s.op = .itp t → t.cls = some .cubic →
      reinterpolateAll lib ps Ns 0 slots ≠ (slots', .ok ()) := by
    intro slots slots' Ns s t hs ht hc h
    obtain ⟨-, q2⟩ := reinterpolateAll_ok lib ps Ns 0 _ _ h
    obtain ⟨o, -, b2⟩ := q2 k s hs
    rw [ht] at b2
    obtain ⟨-, As, hA⟩ := (reinterpolate_cls lib ps xs hP Ns _ t o b2).2 _ hc
    rw [hlib.cubic_order xs As hxs] at hA
    cases hA
  constructor
  · intro I' states' lhs' inputs' hok
    obtain ⟨d', Ns', g1, -⟩ := ifit_inv lib plain l2 I' M' (M'.fit lib plain l2 I' ps states' lhs' inputs').1 h4
      ps states' lhs' inputs' (Prod.ext rfl hok)
    obtain ⟨t3, ht3, hc3⟩ := prepSlot_itp d' ⟨.itp t2, M.base.slots[k].infer⟩ t2 rfl
    exact hbad _ _ Ns' _ t3 (by rw [getElem?_map, b1]; rfl) ht3 (hc3.trans hc2) g1
  · intro I' hok
    simp only [IModel.refit, h2, h3] at hok
    rcases hr : refitSubs I' Ns with ⟨Ns', x⟩
    rw [hr] at hok
    cases x with
    | error e => simp at hok
    | ok u => exact hbad _ _ Ns' _ t2 b1 rfl hc2 (Prod.ext rfl hok)

/-- **C68, before the first fit.** `refit` of an interpolatory model that was not fitted raises
`RuntimeError`. -/
theorem C68_refit_first [AddMonoid K] [LinearOrder K] (lib : ItpLib K) (I : SolverI K S) (M : IModel K S)
    (h : M.subs = none) : M.refit lib I = (M, .error .runtime) := by
  simp only [IModel.refit, h]

/-- An interpolatory model with one linear operator to infer. -/
def iExLin : Except Err (IModel ℚ (Option (ℚ × Nat))) :=
  IModel.construct toyLib [.itp ⟨.lin, none, none, none, none, none⟩] none none

/-- Fit twice with the given parameters and the same data. -/
def iExTwice (ps : List (Par ℚ)) : Except Err (Except Err Unit) :=
  iExLin.bind fun M =>
    match M.fit toyLib none (fun _ => none) oneSolver ps [.mat 1 [[1]], .mat 1 [[1]]]
      [.mat 1 [[3]], .mat 1 [[7]]] none with
    | (M', .ok ()) => .ok (M'.fit toyLib none (fun _ => none) oneSolver ps [.mat 1 [[1]], .mat 1 [[1]]]
      [.mat 1 [[3]], .mat 1 [[7]]] none).2
    | (_, .error e) => .error e

/-- **C68 (concrete witness).** With the parameters 2, 1 the first fit succeeds and the same fit again raises
`ValueError`; with 1, 2 both succeed. -/
theorem C68_witness : iExTwice [.scalar 2, .scalar 1] = .ok (.error .value) ∧
    iExTwice [.scalar 1, .scalar 2] = .ok (.ok ()) := by decide +kernel

end Opinf
