import Verif.Lemmas.ParamMaster
import Verif.Lemmas.ParamFamily

/-!
# Parametric models: the regression problem handed to the solver
-/

namespace Opinf

open List

variable {K S : Type}

theorem exists_forall₂ {α β : Type} {R : α → β → Prop} (l : List α) (h : ∀ a ∈ l, ∃ b, R a b) :
    ∃ bs, Forall₂ R l bs := by
  induction l with
  | nil => exact ⟨[], .nil⟩
  | cons a l ih =>
    obtain ⟨c, hc⟩ := h a mem_cons_self
    obtain ⟨bs, hbs⟩ := ih fun s hs => h s (mem_cons_of_mem _ hs)
    exact ⟨c :: bs, .cons hc hbs⟩

theorem forall₂_map_eq {α β γ : Type} {R : α → β → Prop} {l : List α} {l' : List β} {f : α → γ}
    {g : β → γ} (h : Forall₂ R l l') (hfg : ∀ a b, R a b → f a = g b) : l.map f = l'.map g := by
  induction h with
  | nil => rfl
  | cons hab _ ih => rw [map_cons, map_cons, ih, hfg _ _ hab]

theorem POp.expects_of [LinearOrder K] {lib : ItpLib K} {ps : List (Par K)} {d : Nat} {o : POp K}
    (hne : ps ≠ []) (hl : o.Learnable lib ps) (hr : o.Ready ps d) : o.Expects ps.length := by
  cases o with
  | np o => trivial
  | aff a => exact hl.1
  | itp t =>
    obtain ⟨P, p1, p2, -⟩ := hr
    exact ⟨length_pos_iff.mpr hne, P, p2, (ofPars_wf p1).2.1⟩

/-- The state a parametric fit leaves behind, up to the call of the solver, with the data sets. -/
theorem pfit_master_sets [Field K] [LinearOrder K] (lib : ItpLib K) (I : SolverI K S) (M M1 : PModel K S)
    (ps : List (Par K)) (states lhs : List (Arg K)) (inputs : Option (List (Arg K))) (r m : Nat)
    (hA : PFitArgs lib M ps states lhs inputs r m)
    (hL : ∀ s ∈ M.slots, s.infer = true → s.op.Learnable lib ps)
    (hfit : M.fitSolver lib I ps states lhs inputs = (M1, .ok ())) :
    ∃ (s : S) (D : Mat K) (Z : List (List K)) (bs : List (List (List K))) (d : Nat),
      M.solver = some s ∧ M1.solver = some (I.fit s D Z).1 ∧ (I.fit s D Z).2 = .ok () ∧
      M1.r = some r ∧ M1.m = some m ∧ M1.s = some ps.length ∧ M1.intrusive = M.intrusive ∧
      M1.hasInputs = M.hasInputs ∧
      D.WF ∧ D.nrows = (trainSamples M.hasInputs ps states inputs).length ∧
      D.ncols = pInferDim ps.length r m M1.slots ∧
      (∀ j, j < D.nrows → D.rows[j]? = some (bs.flatMap fun b => b.getD j [])) ∧
      Forall₂ (fun s cols => s.op.Learnable lib ps ∧ s.op.Expects ps.length ∧
        ∀ o2, s.op.SameBut o2 → o2.Learnable lib ps → POp.LearnsWith lib r m ps.length ps (trainSamples M.hasInputs ps states inputs) o2 cols)
        (M1.slots.filter PSlot.infer) bs ∧
      Z.length = (trainSamples M.hasInputs ps states inputs).length ∧
      (lhs.flatMap fun L => (atleast2d L).2).length = (trainSamples M.hasInputs ps states inputs).length ∧
      (∀ z ∈ Z, z.length = r) ∧ (∀ mu ∈ ps, mu.dim = d) ∧
      (∀ y ∈ trainSamples M.hasInputs ps states inputs, y.1 ∈ ps ∧ y.2.1.length = r ∧
        ∀ o ∈ M.ops, InputOK o.kind m y.2.2) ∧
      Forall₂ (fun s s1 => s1.infer = s.infer ∧ s1.op.kind = s.op.kind ∧
        (s.infer = false → ∀ mu ∈ ps, ∀ op, s.op.EvalsTo lib mu r m op → s1.op.EvalsTo lib mu r m op))
        M.slots M1.slots ∧
      (∀ (j : Nat) y, (trainSamples M.hasInputs ps states inputs)[j]? = some y →
        ∃ l z w, (lhs.flatMap fun L => (atleast2d L).2)[j]? = some l ∧ Z[j]? = some z ∧
          l.length = r ∧ w.length = r ∧ SumAt lib M.known y.1 y.2.1 y.2.2 r w ∧ z = vsub l w ∧
          w = (M.known.map fun o => o.val lib y.1 y.2.1 y.2.2).foldl vadd (replicate r 0)) ∧
      ∃ data : List (PSet K), setAllParams ps (M.slots.map (prepSlot d)) = (M1.slots, .ok ()) ∧
        (∀ x ∈ data, x.OK r m M.hasInputs) ∧
        data.map PSet.triple = trainData M.hasInputs ps states inputs ∧
        Forall₂ (fun (x : PSet K) L => L.length = x.states.length) data (lhs.map fun L => (atleast2d L).2) ∧
        Forall₂ (fun (s1 : PSlot K) cols => s1.op.block r m data = .ok cols) (M1.slots.filter PSlot.infer) bs := by
  rw [PModel.fitSolver] at hfit
  rcases hp : M.processFitArgs lib ps states lhs inputs with ⟨M0, x⟩
  rw [hp] at hfit
  cases x with
  | error e => simp at hfit
  | ok t =>
  obtain ⟨data, Z⟩ := t
  obtain ⟨d, f1, f2, f3, f4, f5, f6, f7, f8, f9, f10, f11, -, f12, f13, f14, f15⟩ :=
    process_samples lib M M0 ps states lhs inputs r m hA data Z hp
  simp only at hfit
  rcases hsp : setAllParams ps M0.slots with ⟨slots, x⟩
  rw [hsp] at hfit
  cases x with
  | error e => simp at hfit
  | ok u =>
  simp only at hfit
  have hmud := paramsDim_ok f1
  have hstep := setAllParams_ok ps _ _ hsp
  rw [f2, forall₂_map_left_iff] at hstep
  -- the operators to infer
  have hready : ∀ s1 ∈ slots, s1.infer = true →
      s1.op.Ready ps d ∧ s1.op.Learnable lib ps ∧ (s1.op.kind.hasInputs = true → M.hasInputs = true) := by
    intro s1 hs1 hi
    obtain ⟨s, hs, h1, h2, h3⟩ := forall₂_mem_right hstep hs1
    have hsi : s.infer = true := by rw [h1] at hi; exact hi
    obtain ⟨a1, a2, a3⟩ := prep_infer lib ps d s s1 hsi (hL s hs hsi) ⟨h2, h3⟩
    exact ⟨a1, a2, fun h => hA.flag s.op (mem_map.mpr ⟨s, hs, rfl⟩) (by rw [← a3]; exact h)⟩
  have hslots : Forall₂ (fun s s1 : PSlot K => s1.infer = s.infer ∧ s1.op.kind = s.op.kind ∧
      (s.infer = false → ∀ mu ∈ ps, ∀ op, s.op.EvalsTo lib mu r m op → s1.op.EvalsTo lib mu r m op))
      M.slots slots := by
    rw [forall₂_iff_get] at hstep ⊢
    refine ⟨hstep.1, fun i h1 h2 => ?_⟩
    obtain ⟨b1, b2, b3⟩ := hstep.2 i h1 h2
    have hmem := get_mem M.slots ⟨i, h1⟩
    cases hsi : (M.slots.get ⟨i, h1⟩).infer with
    | true =>
      obtain ⟨-, -, a3⟩ := prep_infer lib ps d _ _ hsi (hL _ hmem hsi) ⟨b2, b3⟩
      exact ⟨by rw [b1]; exact hsi, a3, fun h => absurd h (by simp)⟩
    | false =>
      obtain ⟨-, a2, -, a4⟩ := prep_known lib ps hA.ps_ne d r m hmud _ _ hsi (hA.known _ hmem hsi) ⟨b2, b3⟩
      exact ⟨by rw [b1]; exact hsi, a2, fun _ => a4⟩
  have hdne : data ≠ [] := by
    intro h0; rw [h0] at f10
    have := length_pos_iff.mpr hA.ps_ne
    simp at f10; omega
  have hlearn : ∀ s1 ∈ slots.filter PSlot.infer, ∃ cols, s1.op.block r m data = .ok cols ∧
      s1.op.Learnable lib ps ∧ s1.op.Expects ps.length ∧ ∀ o2, s1.op.SameBut o2 → o2.Learnable lib ps →
        o2.LearnsWith lib r m data.length ps (dataSamples (data.map PSet.triple)) cols := by
    intro s1 hs1
    obtain ⟨h1, h2⟩ := mem_filter.mp hs1
    obtain ⟨a1, a2, a3⟩ := hready s1 h1 h2
    obtain ⟨cols, c1, c2⟩ := POp.learns_family lib s1.op r m hA.r_pos M.hasInputs a3 data hdne f8
      (by rw [f9]; exact a2) d (by rw [f9]; exact hmud) (by rw [f9]; exact a1)
    rw [f9] at c2
    exact ⟨cols, c1, a2, POp.expects_of hA.ps_ne a2 a1, c2⟩
  obtain ⟨bs, hbs⟩ : ∃ bs, Forall₂ (fun (s1 : PSlot K) cols => s1.op.block r m data = .ok cols ∧
      s1.op.Learnable lib ps ∧ s1.op.Expects ps.length ∧ ∀ o2, s1.op.SameBut o2 → o2.Learnable lib ps →
        o2.LearnsWith lib r m data.length ps (dataSamples (data.map PSet.triple)) cols)
      (slots.filter PSlot.infer) bs := by
    exact exists_forall₂ _ hlearn
  have hsmp : dataSamples (data.map PSet.triple) = trainSamples M.hasInputs ps states inputs := by
    rw [trainSamples, f11]
  rw [hsmp] at hbs
  have hk : (data.map fun x => x.states.length).sum = (trainSamples M.hasInputs ps states inputs).length := by
    rw [← hsmp, ← flatten_length_samples f8 f14, length_flatten]
    congr 1
    exact forall₂_map_eq f14 fun _ _ h => h.symm
  have hblen : ∀ b ∈ bs, b.length = (trainSamples M.hasInputs ps states inputs).length := by
    intro b hb
    obtain ⟨s1, -, h⟩ := forall₂_mem_right hbs hb
    exact (h.2.2.2 _ (.refl _) h.2.1).1
  obtain ⟨hs1, hs2⟩ := hstack_rows _ bs hblen
  have hrowlen : ∀ j, j < (trainSamples M.hasInputs ps states inputs).length →
      (bs.flatMap fun b => b.getD j []).length = pInferDim ps.length r m slots := by
    intro j hj
    rw [pInferDim, ← f10, length_flatMap]
    congr 1
    refine (forall₂_map_eq hbs fun s1 b h => ?_).symm
    have hj' := hj
    obtain ⟨l1, l2, -⟩ := h.2.2.2 _ (.refl _) h.2.1
    rw [← l1] at hj'
    rw [getD_eq_getElem _ _ hj']
    exact (l2 _ (getElem_mem _)).symm
  -- the data matrix
  obtain ⟨D, hD, d1, d2, d3⟩ : ∃ D : Mat K, PModel.dataMatrix { M0 with slots := slots } data = .ok D ∧
      D.nrows = (trainSamples M.hasInputs ps states inputs).length ∧
      D.rows = hstack (trainSamples M.hasInputs ps states inputs).length bs ∧
      D.ncols = pInferDim ps.length r m slots := by
    have hti : PModel.toInfer { M0 with slots := slots } = (slots.filter PSlot.infer).map PSlot.op := rfl
    have hNr : PModel.r { M0 with slots := slots } = some r := f3
    have hNm : PModel.m { M0 with slots := slots } = some m := f4
    generalize PModel.mk slots M0.hasInputs M0.r M0.m M0.intrusive M0.solver M0.p M0.s = N at hti hNr hNm ⊢
    have hmap : N.toInfer.mapM (POp.block r m data) = .ok bs := by
      rw [hti, mapM_ok_forall2, forall₂_map_left_iff]
      exact hbs.imp fun _ _ h => h.1
    have hdims : (N.toInfer.map fun o => o.dim data.length r m).sum = pInferDim ps.length r m slots := by
      rw [hti, map_map, pInferDim, f10]; rfl
    rw [PModel.dataMatrix, hNr, hNm, Option.getD_some, Option.getD_some, hmap]
    simp only [hk]
    refine ⟨⟨_, _, _⟩, rfl, rfl, rfl, ?_⟩
    simp only
    cases hrows : hstack (trainSamples M.hasInputs ps states inputs).length bs with
    | nil => exact hdims
    | cons row rows =>
      rw [hrows] at hs1 hs2
      have h0 : 0 < (trainSamples M.hasInputs ps states inputs).length := by rw [← hs1]; simp
      have := hs2 0 h0
      simp only [getElem?_cons_zero, Option.some.injEq] at this
      rw [this]
      exact hrowlen 0 h0
  rw [hD] at hfit
  simp only at hfit
  rw [f7] at hfit
  cases hsol : M.solver with
  | none => rw [hsol] at hfit; simp at hfit
  | some s =>
  rw [hsol] at hfit
  simp only at hfit
  rcases hIf : I.fit s D Z.flatten with ⟨s', x⟩
  rw [hIf] at hfit
  cases x with
  | error e => simp at hfit
  | ok u' =>
  simp only [Prod.mk.injEq, and_true] at hfit
  subst hfit
  have hDwf : D.WF := by
    refine ⟨by rw [d2, d1, hs1], ?_⟩
    intro row hrow
    rw [d2] at hrow
    obtain ⟨j, hj, rfl⟩ := mem_iff_getElem.mp hrow
    rw [hs1] at hj
    have := hs2 j hj
    rw [getElem?_eq_getElem (by rw [hs1]; exact hj), Option.some.injEq] at this
    rw [this, d3, hrowlen j hj]
  refine ⟨s, D, Z.flatten, bs, d, rfl, by rw [hIf], by rw [hIf], f3, f4, rfl, f6, f5, hDwf, d1, d3, ?_, ?_, ?_,
    ?_, f13, hmud, ?_, hslots, f15, data, by rw [← f2]; exact hsp, f8, f11, f14,
    hbs.imp fun _ _ h => h.1⟩
  · intro j hj
    rw [d2, hs2 j (by rw [← d1]; exact hj)]
  · rw [f10] at hbs
    exact hbs.imp fun _ _ h => h.2
  · rw [flatten_length_samples f8 f12, hsmp]
  · rw [flatMap_def, flatten_length_samples f8 f14, hsmp]
  · intro y hy
    rw [← hsmp] at hy
    have hone : y.1 ∈ ps ∧ y.2.1.length = r := by
      obtain ⟨q1, -, -, x, hx, hxy⟩ := mem_samples (PSet.OK.dataOK (o := OpKind.const) (m := m)
        (hasIn := M.hasInputs) (fun h => by cases h) f8) hy
      obtain ⟨x', hx', rfl⟩ := mem_map.mp hx
      exact ⟨by rw [← hxy, ← f9]; exact mem_map.mpr ⟨x', hx', rfl⟩, q1⟩
    refine ⟨hone.1, hone.2, ?_⟩
    intro o ho
    exact (mem_samples (PSet.OK.dataOK (o := o.kind) (hA.flag o ho) f8) hy).2.1

/-- The state a parametric fit leaves behind, up to the call of the solver. -/
theorem pfit_master [Field K] [LinearOrder K] (lib : ItpLib K) (I : SolverI K S) (M M1 : PModel K S)
    (ps : List (Par K)) (states lhs : List (Arg K)) (inputs : Option (List (Arg K))) (r m : Nat)
    (hA : PFitArgs lib M ps states lhs inputs r m)
    (hL : ∀ s ∈ M.slots, s.infer = true → s.op.Learnable lib ps)
    (hfit : M.fitSolver lib I ps states lhs inputs = (M1, .ok ())) :
    ∃ (s : S) (D : Mat K) (Z : List (List K)) (bs : List (List (List K))) (d : Nat),
      M.solver = some s ∧ M1.solver = some (I.fit s D Z).1 ∧ (I.fit s D Z).2 = .ok () ∧
      M1.r = some r ∧ M1.m = some m ∧ M1.s = some ps.length ∧ M1.intrusive = M.intrusive ∧
      M1.hasInputs = M.hasInputs ∧
      D.WF ∧ D.nrows = (trainSamples M.hasInputs ps states inputs).length ∧
      D.ncols = pInferDim ps.length r m M1.slots ∧
      (∀ j, j < D.nrows → D.rows[j]? = some (bs.flatMap fun b => b.getD j [])) ∧
      Forall₂ (fun s cols => s.op.Learnable lib ps ∧ s.op.Expects ps.length ∧
        ∀ o2, s.op.SameBut o2 → o2.Learnable lib ps → POp.LearnsWith lib r m ps.length ps (trainSamples M.hasInputs ps states inputs) o2 cols)
        (M1.slots.filter PSlot.infer) bs ∧
      Z.length = (trainSamples M.hasInputs ps states inputs).length ∧
      (lhs.flatMap fun L => (atleast2d L).2).length = (trainSamples M.hasInputs ps states inputs).length ∧
      (∀ z ∈ Z, z.length = r) ∧ (∀ mu ∈ ps, mu.dim = d) ∧
      (∀ y ∈ trainSamples M.hasInputs ps states inputs, y.1 ∈ ps ∧ y.2.1.length = r ∧
        ∀ o ∈ M.ops, InputOK o.kind m y.2.2) ∧
      Forall₂ (fun s s1 => s1.infer = s.infer ∧ s1.op.kind = s.op.kind ∧
        (s.infer = false → ∀ mu ∈ ps, ∀ op, s.op.EvalsTo lib mu r m op → s1.op.EvalsTo lib mu r m op))
        M.slots M1.slots ∧
      ∀ (j : Nat) y, (trainSamples M.hasInputs ps states inputs)[j]? = some y →
        ∃ l z w, (lhs.flatMap fun L => (atleast2d L).2)[j]? = some l ∧ Z[j]? = some z ∧
          l.length = r ∧ w.length = r ∧ SumAt lib M.known y.1 y.2.1 y.2.2 r w ∧ z = vsub l w ∧
          w = (M.known.map fun o => o.val lib y.1 y.2.1 y.2.2).foldl vadd (replicate r 0) := by
  obtain ⟨s, D, Z, bs, d, g1, g2, g3, g4, g5, g6, g7, g8, g9, g10, g11, g12, g13, g14, g15, g16, g17, g18,
    g19, g20, -⟩ := pfit_master_sets lib I M M1 ps states lhs inputs r m hA hL hfit
  exact ⟨s, D, Z, bs, d, g1, g2, g3, g4, g5, g6, g7, g8, g9, g10, g11, g12, g13, g14, g15, g16, g17, g18,
    g19, g20⟩

end Opinf
