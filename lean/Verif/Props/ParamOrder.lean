import Verif.Props.ParamOptimal
import Verif.Props.TrainOrder

/-!
# C111: the order of the training parameters does not matter for training a parametric model

Specification: permutations of the list of training parameters, each with its data.
-/

namespace Opinf

open List

variable {K S : Type}

/-- What `fit` of a parametric model is given for one training parameter. -/
structure ParamData (K : Type) where
  mu : Par K
  states : Arg K
  lhs : Arg K
  inputs : Arg K

/-- `fit(parameters, states, lhs, inputs)`, the inputs being passed to models with inputs only. -/
def PModel.fitOn [CommRing K] [LinearOrder K] (lib : ItpLib K) (I : SolverI K S) (M : PModel K S)
    (T : List (ParamData K)) : PModel K S × Except Err Unit :=
  M.fit lib I (T.map ParamData.mu) (T.map ParamData.states) (T.map ParamData.lhs)
    (if M.hasInputs then some (T.map ParamData.inputs) else none)

/-- `parameters`, `states`, `lhs` and `inputs` are admissible arguments of `fit`. -/
def PModel.Takes [Semiring K] (lib : ItpLib K) (M : PModel K S) (T : List (ParamData K)) (r m : Nat) : Prop :=
  PFitArgs lib M (T.map ParamData.mu) (T.map ParamData.states) (T.map ParamData.lhs)
    (if M.hasInputs then some (T.map ParamData.inputs) else none) r m

/-- The samples of one training parameter: `(mu, q, u)` and the left-hand side. -/
def ParamData.points (hasIn : Bool) (x : ParamData K) : List ((Par K × List K × Option (List K)) × List K) :=
  zip (dataSamples [(x.mu, (atleast2d x.states).2, if hasIn then some (atleast2d x.inputs).2 else none)])
    (atleast2d x.lhs).2

/-- The coefficients of an affine operator. -/
def Affine.coefsAt (a : Affine K) (mu : Par K) : List K :=
  match a.thetas mu with
  | .ok th => th
  | .error _ => []

/-- What the entries of an operator are multiplied with at a sample: the data of the operator class, for an affine
operator once per term, weighted with the coefficient of the term. -/
def POp.learnCol [CommSemiring K] (o : POp K) (y : Par K × List K × Option (List K)) : List K :=
  match o with
  | .np o => o.kind.dataCol y.2.1 (y.2.2.getD [])
  | .aff a => (a.coefsAt y.1).flatMap fun t => vsmul t (a.kind.dataCol y.2.1 (y.2.2.getD []))
  | .itp _ => []

/-- The data of all operators to infer. -/
def PModel.learnVector [CommSemiring K] (M : PModel K S) (y : Par K × List K × Option (List K)) : List K :=
  M.toInfer.flatMap fun o => o.learnCol y

/-- No operator of the model is interpolated. -/
def PModel.Plain (M : PModel K S) : Prop := ∀ o ∈ M.ops, o.interp? = none

/-! ### Least squares problems with the same rows in a different order -/

section

variable [Field K] [LinearOrder K] [IsStrictOrderedRing K]

/-- Squared residuals plus penalty. -/
def rowsCost (pen : List K → K) (pts : List (List K × List K)) (R : List (List K)) : K :=
  (pts.map fun x => sumSq (vsub x.2 (matVec R x.1))).sum + (R.map pen).sum

omit [LinearOrder K] [IsStrictOrderedRing K] in
theorem vadd_zeros_right (a : List K) (n : Nat) (h : a.length = n) : vadd a (replicate n 0) = a := by
  have := vadd_zero_right a 1 n h
  simpa [vsmul] using this

theorem minimal_rows_agree {pen : List K → K} {n r : Nat} (hp : Quadratic n pen) (pts pts' : List (List K × List K))
    (hperm : pts.Perm pts') (hz : ∀ x ∈ pts, x.2.length = r) (P Q : List (List K)) (hP : P.length = r)
    (hQ : Q.length = r) (hPr : ∀ a ∈ P, a.length = n) (hQr : ∀ a ∈ Q, a.length = n)
    (hbest : ∀ R : List (List K), R.length = r → (∀ a ∈ R, a.length = n) → rowsCost pen pts P ≤ rowsCost pen pts R)
    (hbest' : ∀ R : List (List K), R.length = r → (∀ a ∈ R, a.length = n) → rowsCost pen pts' Q ≤ rowsCost pen pts' R) :
    (∀ x ∈ pts, matVec P x.1 = matVec Q x.1) ∧ ∀ i < r, pen (vsub (P.getD i []) (Q.getD i [])) = 0 := by
  have hsame : ∀ R, rowsCost pen pts' R = rowsCost pen pts R := by
    intro R
    rw [rowsCost, rowsCost, (hperm.map _).sum_eq]
  have hcost : ∀ R : List (List K), R.length = r →
      matCost pen (pts.map fun x => ⟨x.1, x.2, none⟩) (fun _ => replicate r 0) [.lin] R = rowsCost pen pts R := by
    intro R hR
    simp only [matCost, rowsCost, map_map, Function.comp_def]
    congr 2
    apply map_congr_left
    intro x _
    simp only [dataVector, flatMap_cons, flatMap_nil, append_nil, OpKind.dataCol]
    rw [vadd_zeros_right _ _ (by rw [length_matVec, hR])]
  obtain ⟨h1, h2⟩ := minimisers_agree hp (pts.map fun x => ⟨x.1, x.2, none⟩) (fun _ => replicate r 0) [.lin]
    (by
      intro x hx
      obtain ⟨y, hy, rfl⟩ := mem_map.1 hx
      exact hz y hy) (by simp) P Q hP hQ hPr hQr
    (fun R hR hRr => by rw [hcost P hP, hcost R hR]; exact hbest R hR hRr)
    (by rw [hcost P hP, hcost Q hQ, ← hsame, ← hsame P]; exact hbest' P hP hPr)
  refine ⟨fun x hx => ?_, h2⟩
  have := h1 ⟨x.1, x.2, none⟩ (mem_map.2 ⟨x, hx, rfl⟩)
  simpa [dataVector, OpKind.dataCol] using this

/-- With a definite penalty, or data that determine the rows, the minimiser is unique. -/
theorem rows_equal {pen : List K → K} {n r : Nat} (pts : List (List K × List K)) (P Q : List (List K)) (hP : P.length = r)
    (hQ : Q.length = r) (hPr : ∀ a ∈ P, a.length = n) (hQr : ∀ a ∈ Q, a.length = n)
    (h1 : ∀ x ∈ pts, matVec P x.1 = matVec Q x.1) (h2 : ∀ i < r, pen (vsub (P.getD i []) (Q.getD i [])) = 0)
    (hx : ∀ x ∈ pts, x.1.length = n)
    (hdet : Definite n pen ∨ ∀ v : List K, v.length = n → (∀ x ∈ pts, dot v x.1 = 0) → ∀ y ∈ v, y = 0) : P = Q := by
  apply ext_getElem (by rw [hP, hQ])
  intro i hi hi'
  have hli := hPr _ (getElem_mem hi)
  have hli' := hQr _ (getElem_mem hi')
  have hlv : (vsub P[i] Q[i]).length = n := by rw [length_vsub, hli, hli', min_self]
  have hzero : ∀ y ∈ vsub P[i] Q[i], y = 0 := by
    rcases hdet with hd | hd
    · apply hd _ hlv
      have := h2 i (by rw [← hP]; exact hi)
      rwa [Opinf.getD_eq_getElem _ _ hi, Opinf.getD_eq_getElem _ _ hi'] at this
    · apply hd _ hlv
      intro x hxm
      have := congrArg (fun v => v.getD i 0) (h1 x hxm)
      simp only [getD_matVec] at this
      rw [Opinf.getD_eq_getElem _ _ hi, Opinf.getD_eq_getElem _ _ hi'] at this
      rw [dot_vsub_left _ _ _ (by rw [hli, hli']), this, sub_self]
  exact (vsub_zero_mem (by rw [hli, hli']) hzero)

end

/-! ### One training -/

section

variable [Field K] [LinearOrder K]

omit [Field K] in
theorem setAllParams_plain (ps : List (Par K)) (slots : List (PSlot K)) (h : ∀ s ∈ slots, s.op.interp? = none) :
    setAllParams ps slots = (slots, .ok ()) := by
  induction slots with
  | nil => rfl
  | cons s slots ih =>
    have hs := h s mem_cons_self
    have ih := ih fun x hx => h x (mem_cons_of_mem _ hx)
    rw [setAllParams]
    cases ho : s.op with
    | itp t => rw [ho] at hs; cases hs
    | np o => simp only [ih]
    | aff a => simp only [ih]

omit [Field K] [LinearOrder K] in
theorem prepSlot_interp (d : Nat) (s : PSlot K) (h : s.op.interp? = none) : (prepSlot d s).op.interp? = none := by
  obtain ⟨o, b⟩ := s
  cases o with
  | itp t => cases h
  | np o => cases b <;> rfl
  | aff a => cases b <;> rfl

omit [LinearOrder K] in
theorem prepSlot_learnCol (d : Nat) (s : PSlot K) (h : s.op.interp? = none) :
    (prepSlot d s).op.learnCol = s.op.learnCol := by
  obtain ⟨o, b⟩ := s
  cases o with
  | itp t => cases h
  | np o => cases b <;> rfl
  | aff a =>
    funext y
    cases b <;> simp only [prepSlot, if_true, Bool.false_eq_true, if_false, POp.clear, POp.fill, Affine.clear]
    · split <;> rfl
    · split <;> rfl

omit [LinearOrder K] in
theorem learnCol_block [LinearOrder K] (lib : ItpLib K) (o : POp K) (ho : o.interp? = none) (r m : Nat) (hasIn : Bool)
    (hi : o.kind.hasInputs = true → hasIn = true) (data : List (PSet K)) (hne : data ≠ [])
    (hd : ∀ x ∈ data, x.OK r m hasIn) (hl : o.Learnable lib (data.map PSet.mu)) :
    o.block r m data = .ok ((dataSamples (data.map PSet.triple)).map o.learnCol) := by
  cases o with
  | itp t => cases ho
  | np o =>
    simp only [POp.block]
    rw [if_neg (by simpa using hne)]
    congr 1
    clear hne
    induction data with
    | nil => rfl
    | cons x data ih =>
      rw [flatMap_cons, map_cons, samples_cons, map_append, ih (fun x hx => hd x (mem_cons_of_mem _ hx)) trivial]
      congr 1
      have := PSet.OK.dataOK (o := o.kind) (data := [x]) hi
        (fun z hz => by rw [mem_singleton.mp hz]; exact hd x mem_cons_self)
      exact block_samples (this x.triple (by simp))
  | aff a =>
    obtain ⟨hn, hco⟩ := hl
    have hdok := PSet.OK.dataOK (o := a.kind) hi hd
    simp only [POp.block]
    rw [affine_block_eq a r m hn (data.map PSet.triple) hdok (by simpa using hne) a.coefsAt]
    · rfl
    · intro x hx
      obtain ⟨z, hz, rfl⟩ := mem_map.mp hx
      obtain ⟨th, h1, h2⟩ := hco z.mu (mem_map.mpr ⟨z, hz, rfl⟩)
      refine ⟨?_, ?_⟩ <;> simp only [Affine.coefsAt, PSet.triple, h1]
      exact h2

omit [Field K] [LinearOrder K] in
theorem points_data (hasIn : Bool) (T : List (ParamData K)) :
    trainData hasIn (T.map ParamData.mu) (T.map ParamData.states) (if hasIn then some (T.map ParamData.inputs) else none) =
      T.map fun x => (x.mu, (atleast2d x.states).2, if hasIn then some (atleast2d x.inputs).2 else none) := by
  cases hasIn
  · simp only [trainData, Bool.false_eq_true, if_false]
    induction T with
    | nil => rfl
    | cons x T ih => simp only [map_cons, zipWith_cons_cons, ih]
  · simp only [trainData, if_true, Option.getD_some]
    induction T with
    | nil => rfl
    | cons x T ih => simp only [map_cons, zip_cons_cons, zipWith_cons_cons, ih]

/-- The value of the known operators at a sample. -/
def PModel.knownAt (lib : ItpLib K) (M : PModel K S) (r : Nat) (y : Par K × List K × Option (List K)) : List K :=
  (M.known.map fun o => o.val lib y.1 y.2.1 y.2.2).foldl vadd (replicate r 0)

/-- What one training does, for a model without interpolated operators. -/
theorem fitOn_facts (lib : ItpLib K) (I : SolverI K S) (M M' : PModel K S) (T : List (ParamData K)) (r m : Nat)
    (hint : M.intrusive = false) (hA : M.Takes lib T r m) (hplain : M.Plain)
    (hL : ∀ s ∈ M.slots, s.infer = true → s.op.Learnable lib (T.map ParamData.mu)) (hI : I.Shaped r)
    (hempty : ∀ s D, (I.fit s D []).2 ≠ .ok ()) (hfit : M.fitOn lib I T = (M', .ok ())) :
    ∃ (s : S) (D O : Mat K) (Z : List (List K)) (d : Nat), M.solver = some s ∧ Z ≠ [] ∧
      I.solve (I.fit s D Z).1 = .ok O ∧ (I.fit s D Z).2 = .ok () ∧ D.WF ∧ (lhsMat Z).WF ∧
      (lhsMat Z).ncols = D.nrows ∧ O.WF ∧ O.nrows = r ∧ O.nrows = (lhsMat Z).nrows ∧ O.ncols = D.ncols ∧
      (∀ z ∈ Z, z.length = r) ∧ Z.length = D.rows.length ∧
      D.rows = (T.flatMap (ParamData.points M.hasInputs)).map (fun x => M.learnVector x.1) ∧
      Z = (T.flatMap (ParamData.points M.hasInputs)).map (fun x => vsub x.2 (M.knownAt lib r x.1)) ∧
      D.ncols = pInferDim T.length r m (M.slots.map (prepSlot d)) ∧
      (∀ x ∈ T, x.mu.dim = d) ∧
      pExtract lib T.length r m O 0 (M.slots.map (prepSlot d)) = (M'.slots, .ok ()) ∧
      ∀ x ∈ T.flatMap (ParamData.points M.hasInputs), (M'.rhs lib x.1.1 x.1.2.1 x.1.2.2).2 =
        .ok (vadd (matVec O.rows (M.learnVector x.1)) (M.knownAt lib r x.1)) := by
  rw [PModel.fitOn] at hfit
  rw [PModel.Takes] at hA
  have hdat := points_data M.hasInputs T
  have hlhs : (T.map ParamData.lhs).flatMap (fun L => (atleast2d L).2) = T.flatMap fun x => (atleast2d x.lhs).2 := by
    rw [flatMap_map]
  obtain ⟨ps, hps⟩ : ∃ ps, ps = T.map ParamData.mu := ⟨_, rfl⟩
  obtain ⟨states, hst⟩ : ∃ states, states = T.map ParamData.states := ⟨_, rfl⟩
  obtain ⟨lhs, hlh⟩ : ∃ lhs, lhs = T.map ParamData.lhs := ⟨_, rfl⟩
  obtain ⟨inputs, hin⟩ : ∃ inputs, inputs = if M.hasInputs then some (T.map ParamData.inputs) else none := ⟨_, rfl⟩
  have hlen : ps.length = T.length := by rw [hps, length_map]
  rw [← hps, ← hst, ← hlh, ← hin] at hfit hA
  rw [← hps] at hL
  rw [← hps, ← hst, ← hin] at hdat
  rw [← hlh] at hlhs
  rw [PModel.fit, if_neg (by simp [hint])] at hfit
  rcases hfs : M.fitSolver lib I ps states lhs inputs with ⟨M1, x⟩
  rw [hfs] at hfit
  cases x with
  | error e => simp at hfit
  | ok u =>
  simp only at hfit
  obtain ⟨s, D, Z, bs, d, g1, g2, g3, g4, g5, g6, g7, g8, g9, g10, g11, g12, g13, g14, g15, g16, g17, g18,
    g19, g20, data, k1, k2, k3, k4, k5⟩ := pfit_master_sets lib I M M1 ps states lhs inputs r m hA hL hfs
  rw [PModel.refit, if_neg (by simp [g7, hint]), g2] at hfit
  simp only at hfit
  cases hsol : I.solve (I.fit s D Z).1 with
  | error e => rw [hsol] at hfit; simp at hfit
  | ok O =>
  rw [hsol] at hfit
  simp only [g6, g4, g5, Option.getD_some, Prod.mk.injEq] at hfit
  obtain ⟨hM', hok⟩ := hfit
  rcases hex : pExtract lib ps.length r m O 0 M1.slots with ⟨slots', x⟩
  rw [hex] at hok hM'
  simp only at hok hM'
  subst hok
  have hMs : M'.slots = slots' := by rw [← hM']
  obtain ⟨hO, hOr, hOc⟩ := hI s D Z O g16 g3 hsol
  have hne : Z ≠ [] := by rintro rfl; exact hempty _ _ g3
  have hlm := lhsMat_of r Z g16 hne
  have hZwf := lhsMat_wf r Z g16 hne
  have hk : (lhsMat Z).ncols = D.nrows := by rw [g10, ← g14]; rfl
  -- the slots
  have hslots : M1.slots = M.slots.map (prepSlot d) := by
    have := setAllParams_plain ps (M.slots.map (prepSlot d)) (by
      intro s hs
      obtain ⟨s0, h0, rfl⟩ := mem_map.1 hs
      exact prepSlot_interp d s0 (hplain _ (mem_map.2 ⟨s0, h0, rfl⟩)))
    rw [this] at k1
    exact (Prod.mk.inj k1).1.symm
  -- the samples
  have hsamp : trainSamples M.hasInputs ps states inputs = T.flatMap fun x => dataSamples
      [(x.mu, (atleast2d x.states).2, if M.hasInputs then some (atleast2d x.inputs).2 else none)] := by
    rw [trainSamples, hdat, dataSamples, flatMap_map]
    congr 1
    funext x
    simp [dataSamples]
  have hmu : data.map PSet.mu = ps := by
    have := congrArg (map Prod.fst) (k3.trans hdat)
    rw [map_map, map_map] at this
    rw [hps]
    exact this
  have hdne : data ≠ [] := by
    rintro rfl
    exact hA.ps_ne hmu.symm
  have hdlen : ∀ x ∈ T, (dataSamples [(x.mu, (atleast2d x.states).2,
      if M.hasInputs then some (atleast2d x.inputs).2 else none)]).length = ((atleast2d x.lhs).2).length := by
    have hF : Forall₂ (fun (t : Par K × List (List K) × Option (List (List K))) (L : List (List K)) =>
        (dataSamples [t]).length = L.length) (data.map PSet.triple) (lhs.map fun L => (atleast2d L).2) := by
      rw [forall₂_map_left_iff]
      rw [forall₂_iff_zip] at k4 ⊢
      refine ⟨k4.1, fun {x L} hz => ?_⟩
      rw [dataSamples_length (k2 x (of_mem_zip hz).1), k4.2 hz]
    rw [k3, hdat, hlh, map_map, forall₂_map_left_iff, forall₂_map_right_iff, forall₂_same] at hF
    exact hF
  have hpts : T.flatMap (ParamData.points M.hasInputs) =
      zip (trainSamples M.hasInputs ps states inputs) (lhs.flatMap fun L => (atleast2d L).2) := by
    rw [hsamp, hlhs, zip_flatMap _ _ _ hdlen]
    rfl
  -- the data matrix
  have hcols : bs = (M1.slots.filter PSlot.infer).map fun s1 =>
      (trainSamples M.hasInputs ps states inputs).map s1.op.learnCol := by
    have hF : Forall₂ (fun (s1 : PSlot K) cols => cols = (trainSamples M.hasInputs ps states inputs).map s1.op.learnCol)
        (M1.slots.filter PSlot.infer) bs := by
      have hlearn := forall₂_iff_zip.1 g13
      rw [forall₂_iff_zip]
      refine ⟨k5.length_eq, fun {s1 cols} hz => ?_⟩
      have hb := (forall₂_iff_zip.1 k5).2 hz
      have hg := hlearn.2 hz
      have hs1 := (of_mem_zip hz).1
      have hs1' := (mem_filter.1 hs1).1
      have hint' : s1.op.interp? = none := by
        rw [hslots] at hs1'
        obtain ⟨s0, h0, rfl⟩ := mem_map.1 hs1'
        exact prepSlot_interp d s0 (hplain _ (mem_map.2 ⟨s0, h0, rfl⟩))
      have hi : s1.op.kind.hasInputs = true → M.hasInputs = true := by
        rw [hslots] at hs1'
        obtain ⟨s0, h0, rfl⟩ := mem_map.1 hs1'
        rw [prepSlot_kind]
        exact hA.flag s0.op (mem_map.2 ⟨s0, h0, rfl⟩)
      rw [learnCol_block lib s1.op hint' r m M.hasInputs hi data hdne k2 (by rw [hmu]; exact hg.1)] at hb
      rw [← Except.ok.inj hb, k3]
      rfl
    clear * - hF
    generalize M1.slots.filter PSlot.infer = l at hF ⊢
    induction hF with
    | nil => rfl
    | cons h _ ih => rw [map_cons, h, ih]
  have hvec : ∀ y, (M1.slots.filter PSlot.infer).flatMap (fun s1 => s1.op.learnCol y) = M.learnVector y := by
    intro y
    rw [hslots, PModel.learnVector, PModel.toInfer, flatMap_map]
    have : ∀ slots : List (PSlot K), (∀ s ∈ slots, s.op.interp? = none) →
        ((slots.map (prepSlot d)).filter PSlot.infer).flatMap (fun s1 => s1.op.learnCol y) =
          (slots.filter PSlot.infer).flatMap fun s => s.op.learnCol y := by
      intro slots hs
      induction slots with
      | nil => rfl
      | cons s slots ih =>
        have ih := ih fun x hx => hs x (mem_cons_of_mem _ hx)
        have h0 := prepSlot_learnCol d s (hs s mem_cons_self)
        rw [map_cons]
        cases hsi : s.infer with
        | true =>
          rw [filter_cons_of_pos (by exact hsi), filter_cons_of_pos (by exact hsi), flatMap_cons, flatMap_cons, ih, h0]
        | false =>
          rw [filter_cons_of_neg (by simpa [prepSlot] using hsi), filter_cons_of_neg (by simpa using hsi), ih]
    exact this M.slots fun s hs => hplain _ (mem_map.2 ⟨s, hs, rfl⟩)
  have hrows : D.rows = (trainSamples M.hasInputs ps states inputs).map M.learnVector := by
    apply ext_getElem (by rw [g9.1, g10, length_map])
    intro j h1 h2
    have h3 : j < (trainSamples M.hasInputs ps states inputs).length := by simpa using h2
    have h4 := g12 j (by rw [g10]; exact h3)
    rw [getElem?_eq_getElem h1, Option.some.injEq] at h4
    rw [h4, getElem_map, ← hvec, hcols, flatMap_map]
    congr 1
    funext s1
    rw [Opinf.getD_eq_getElem _ _ (by simpa using h3), getElem_map]
  have hzl : (lhs.flatMap fun L => (atleast2d L).2).length = (trainSamples M.hasInputs ps states inputs).length := g15
  -- the trained model
  obtain ⟨e1, e2⟩ := pExtract_spec lib r m ps.length ps _ O hO hOr M1.slots slots' 0 bs
    (g13.imp fun _ _ h => h.2.2 _ (.refl _) h.1)
    (by rw [hOc, g11]; simp) hex
  have hcomb : Forall₂ (fun s s' : PSlot K => s'.infer = s.infer ∧ s'.op.kind = s.op.kind ∧
      (s.infer = false → ∀ mu ∈ ps, ∀ op, s.op.EvalsTo lib mu r m op → s'.op.EvalsTo lib mu r m op) ∧
      (s.infer = true → ∀ mu ∈ ps, ∃ op, s'.op.EvalsTo lib mu r m op)) M.slots slots' := by
    rw [forall₂_iff_get] at g19 e1 ⊢
    refine ⟨g19.1.trans e1.1, fun i h1 h2 => ?_⟩
    obtain ⟨a1, a2, a3⟩ := g19.2 i h1 (g19.1 ▸ h1)
    obtain ⟨b1, b2, b3, b4⟩ := e1.2 i (g19.1 ▸ h1) h2
    refine ⟨b1.trans a1, b2.trans a2, ?_, ?_⟩
    · intro hi
      have := b3 (a1.trans hi)
      rw [this]
      exact a3 hi
    · intro hi
      exact b4 (a1.trans hi)
  obtain ⟨-, hres⟩ := pResidual lib M M' ps states lhs inputs r m hA D Z bs g10 g12 g16 g18 g20 O hO hOr
    (by rw [hMs]; exact hcomb) (by
      intro j y hy i hi
      have := e2 j y hy i hi
      rw [drop_zero] at this
      rw [hMs]
      exact this)
  refine ⟨s, D, O, Z, d, g1, hne, hsol, g3, g9, hZwf, hk, hO, hOr, by rw [hlm]; exact hOr, hOc, g16,
    by rw [g14, g9.1, g10], ?_, ?_, ?_, ?_, ?_, ?_⟩
  · rw [hpts, hrows]
    conv_lhs => rw [← map_fst_zip (l₂ := lhs.flatMap fun L => (atleast2d L).2) (le_of_eq hzl.symm)]
    rw [map_map]
    rfl
  · rw [hpts]
    apply ext_getElem (by simp [g14, hzl])
    intro j h1 h2
    have h3 : j < (trainSamples M.hasInputs ps states inputs).length := by rw [← g14]; exact h1
    obtain ⟨l, z, w, q1, q2, -, -, -, q6, q7⟩ := g20 j _ (getElem?_eq_getElem h3)
    rw [getElem?_eq_getElem h1, Option.some.injEq] at q2
    rw [getElem?_eq_getElem (by rw [hzl]; exact h3), Option.some.injEq] at q1
    rw [getElem_map, getElem_zip, q2, q6, q7, ← q1]
    rfl
  · rw [g11, hlen, hslots]
  · intro x hx
    exact g17 x.mu (by rw [hps]; exact mem_map.2 ⟨x, hx, rfl⟩)
  · rw [hMs, ← hslots, ← hlen]
    exact hex
  · intro x hx
    rw [hpts] at hx
    obtain ⟨j, hj, rfl⟩ := mem_iff_getElem.1 hx
    have h3 : j < (trainSamples M.hasInputs ps states inputs).length := by
      rw [length_zip, hzl, min_self] at hj
      exact hj
    obtain ⟨d', l, z, v, w, a1, a2, a3, a4, a5, a6, a7, -⟩ := hres j _ (getElem?_eq_getElem h3)
    obtain ⟨l', z', w', q1, q2, q3, q4, q5, q6, q7⟩ := g20 j _ (getElem?_eq_getElem h3)
    have hw : w = w' := SumAt.unique a5 q5
    rw [getElem_zip]
    simp only
    rw [a4, a7, hw, q7]
    rw [hrows, getElem?_map, getElem?_eq_getElem h3, Option.map_some, Option.some.injEq] at a1
    rw [← a1]
    rfl

end

/-! ### Two trainings -/

section

variable [Field K] [LinearOrder K] [IsStrictOrderedRing K]

/-- The training data determine the operators to infer: no combination of their entries vanishes at all samples. -/
def PModel.DeterminedBy (M : PModel K S) (n : Nat) (T : List (ParamData K)) : Prop :=
  ∀ v : List K, v.length = n →
    (∀ x ∈ T.flatMap (ParamData.points M.hasInputs), dot v (M.learnVector x.1) = 0) → ∀ y ∈ v, y = 0

/-- The number of columns of the entries of the operators to infer. -/
def PModel.learnWidth (M : PModel K S) (n r m : Nat) : Nat := (M.toInfer.map fun o => o.dim n r m).sum

omit [Field K] [LinearOrder K] [IsStrictOrderedRing K] in
theorem prepSlot_dim (d n r m : Nat) (s : PSlot K) : (prepSlot d s).op.dim n r m = s.op.dim n r m := by
  obtain ⟨o, b⟩ := s
  cases o <;> cases b <;> simp only [prepSlot, if_true, Bool.false_eq_true, if_false, POp.clear, POp.fill, Affine.clear,
    Interp.clear, Op.clear, POp.dim] <;> (try split) <;> rfl

omit [Field K] [LinearOrder K] [IsStrictOrderedRing K] in
theorem learnWidth_prep (M : PModel K S) (d n r m : Nat) :
    pInferDim n r m (M.slots.map (prepSlot d)) = M.learnWidth n r m := by
  rw [pInferDim, PModel.learnWidth, PModel.toInfer]
  induction M.slots with
  | nil => rfl
  | cons s slots ih =>
    rw [map_cons]
    cases hs : s.infer with
    | true =>
      rw [filter_cons_of_pos (by exact hs), filter_cons_of_pos (by exact hs), map_cons, map_cons, map_cons, sum_cons, sum_cons,
        ih, prepSlot_dim]
    | false => rw [filter_cons_of_neg (by simpa [prepSlot] using hs), filter_cons_of_neg (by simpa using hs), ih]

omit [LinearOrder K] [IsStrictOrderedRing K] in
theorem takes_perm {lib : ItpLib K} {M : PModel K S} {T T' : List (ParamData K)} {r m : Nat} (h : T.Perm T')
    (hA : M.Takes lib T r m) : M.Takes lib T' r m := by
  have hm : ∀ (f : ParamData K → Arg K) a, a ∈ T'.map f → a ∈ T.map f := fun f a ha => (h.map f).mem_iff.2 ha
  have hp : ∀ a, a ∈ T'.map ParamData.mu → a ∈ T.map ParamData.mu := fun a ha => (h.map _).mem_iff.2 ha
  have hin : ∀ us ∈ (if M.hasInputs then some (T'.map ParamData.inputs) else none), ∀ a ∈ us,
      ∃ vs, vs ∈ (if M.hasInputs then some (T.map ParamData.inputs) else none) ∧ a ∈ vs := by
    intro us hus a ha
    cases hi : M.hasInputs with
    | false => rw [hi] at hus; simp at hus
    | true =>
      rw [hi] at hus
      simp only [if_true, Option.mem_def, Option.some.injEq] at hus ⊢
      subst hus
      exact ⟨_, rfl, hm _ a ha⟩
  obtain ⟨c1, c2, c3, c4, c5, c6, c7, c8, c9, c10, c11⟩ := hA
  refine ⟨fun h0 => c1 ?_, c2, fun a ha => c3 a (hm _ a ha), fun a ha => c4 a (hm _ a ha), ?_, c6,
    fun a ha => c7 a (hm _ a ha), ?_, c9, c10, fun s hs hi mu hmu => c11 s hs hi mu (hp mu hmu)⟩
  · rw [map_eq_nil_iff] at h0 ⊢
    rw [h0] at h
    exact h.eq_nil
  · intro us hus a ha
    obtain ⟨vs, h1, h2⟩ := hin us hus a ha
    exact c5 vs h1 a h2
  · intro hi us hus a ha
    obtain ⟨vs, h1, h2⟩ := hin us hus a ha
    exact c8 hi vs h1 a h2

/-- Two successful trainings of a parametric model without interpolated operators, on the same data in a different
order. -/
structure TwoOrders (lib : ItpLib K) (I : SolverI K S) (M M₁ M₂ : PModel K S) (T T' : List (ParamData K)) (r m : Nat) :
    Prop where
  learns : M.intrusive = false
  plain : M.Plain
  perm : T.Perm T'
  args : M.Takes lib T r m
  learnable : ∀ s ∈ M.slots, s.infer = true → s.op.Learnable lib (T.map ParamData.mu)
  fit : M.fitOn lib I T = (M₁, .ok ())
  fit' : M.fitOn lib I T' = (M₂, .ok ())

/-- The two trained models agree at the training samples. -/
def AgreeOn (lib : ItpLib K) (M M₁ M₂ : PModel K S) (T : List (ParamData K)) : Prop :=
  ∀ x ∈ T.flatMap (ParamData.points M.hasInputs), ∃ v, (M₁.rhs lib x.1.1 x.1.2.1 x.1.2.2).2 = .ok v ∧
    (M₂.rhs lib x.1.1 x.1.2.1 x.1.2.2).2 = .ok v

/-- The two trained models have the same operators, and so the same right-hand side and Jacobian everywhere. -/
structure SameModel (lib : ItpLib K) (M₁ M₂ : PModel K S) : Prop where
  slots : M₂.slots = M₁.slots
  rhs : ∀ mu q u, (M₂.rhs lib mu q u).2 = (M₁.rhs lib mu q u).2
  jacobian : ∀ mu q u, (M₂.jacobian lib mu q u).2 = (M₁.jacobian lib mu q u).2

omit [IsStrictOrderedRing K] in
theorem sameModel_of (lib : ItpLib K) {M₁ M₂ : PModel K S} (h : M₂.slots = M₁.slots) : SameModel lib M₁ M₂ := by
  have he : ∀ mu, (M₂.evaluate lib mu).2 = (M₁.evaluate lib mu).2 := by
    intro mu
    unfold PModel.evaluate
    rw [h]
    rcases evalOps lib mu M₁.slots with ⟨ss, x⟩
    cases x <;> rfl
  exact ⟨h, fun mu q u => by simp only [PModel.rhs, he], fun mu q u => by simp only [PModel.jacobian, he]⟩

/-- The solution of a training problem has the smallest cost. -/
def MinimalFor (pen : List K → K) (D : Mat K) (Z : List (List K)) (O : Mat K) : Prop :=
  ∀ O' : Mat K, O'.WF → O'.nrows = O.nrows → O'.ncols = O.ncols →
    rowLoss D (lhsMat Z) O + (O.rows.map pen).sum ≤ rowLoss D (lhsMat Z) O' + (O'.rows.map pen).sum

theorem orders_core (lib : ItpLib K) (I : SolverI K S) (M M₁ M₂ : PModel K S) (T T' : List (ParamData K)) (r m : Nat)
    (h : TwoOrders lib I M M₁ M₂ T T' r m) (hI : I.Shaped r) (hempty : ∀ s D, (I.fit s D []).2 ≠ .ok ())
    (pen : List K → K) (hp : ∀ n, Quadratic n pen)
    (hmin : ∀ s D O Z, M.solver = some s → Z ≠ [] → I.solve (I.fit s D Z).1 = .ok O → (I.fit s D Z).2 = .ok () → D.WF →
      (lhsMat Z).WF → (lhsMat Z).ncols = D.nrows → O.nrows = (lhsMat Z).nrows → O.ncols = D.ncols →
      MinimalFor pen D Z O) :
    AgreeOn lib M M₁ M₂ T ∧
      (Definite (M.learnWidth T.length r m) pen ∨ M.DeterminedBy (M.learnWidth T.length r m) T → SameModel lib M₁ M₂) := by
  have hL' : ∀ s ∈ M.slots, s.infer = true → s.op.Learnable lib (T'.map ParamData.mu) := by
    intro s hs hi
    have h0 := h.learnable s hs hi
    have hmem : ∀ mu, mu ∈ T'.map ParamData.mu ↔ mu ∈ T.map ParamData.mu := fun mu => (h.perm.map _).mem_iff.symm
    cases ho : s.op with
    | np o => trivial
    | aff a =>
      rw [ho] at h0
      exact ⟨h0.1, fun mu hmu => h0.2 mu ((hmem mu).1 hmu)⟩
    | itp t =>
      have := h.plain s.op (mem_map.2 ⟨s, hs, rfl⟩)
      rw [ho] at this
      cases this
  obtain ⟨s, D, O, Z, d, a1, a2, a3, a4, a5, a6, a7, a8, a9, a10, a11, a12, a13, a14, a15, a16, a17, a18, a19⟩ :=
    fitOn_facts lib I M M₁ T r m h.learns h.args h.plain h.learnable hI hempty h.fit
  obtain ⟨s', D', O', Z', d', b1, b2, b3, b4, b5, b6, b7, b8, b9, b10, b11, b12, b13, b14, b15, b16, b17, b18, b19⟩ :=
    fitOn_facts lib I M M₂ T' r m h.learns (takes_perm h.perm h.args) h.plain hL' hI hempty h.fit'
  have hlen : T'.length = T.length := h.perm.length_eq.symm
  obtain rfl : d' = d := by
    cases T with
    | nil => exact absurd rfl h.args.ps_ne
    | cons x T =>
      rw [← a17 x mem_cons_self, b17 x (h.perm.mem_iff.1 mem_cons_self)]
  rw [learnWidth_prep] at a16 b16
  rw [hlen] at b16
  obtain ⟨n, hn⟩ : ∃ n, n = M.learnWidth T.length r m := ⟨_, rfl⟩
  rw [← hn] at a16 b16
  -- the rows of the two problems
  have hcost : ∀ (D : Mat K) (Z : List (List K)), D.WF → (∀ z ∈ Z, z.length = r) → Z ≠ [] → Z.length = D.rows.length →
      ∀ R : List (List K), R.length = r → ∀ c, rowLoss D (lhsMat Z) ⟨r, c, R⟩ + (R.map pen).sum =
        rowsCost pen (zip D.rows Z) R := by
    intro D Z hD hZ hne hl R hR c
    rw [rowLoss, lhsMat_of r Z hZ hne, rowsCost]
    congr 1
    have := residual_swap r Z.length D ⟨r, c, R⟩ Z hZ rfl hl.symm hR
    simp only at this ⊢
    rw [this]
    congr 1
    apply ext_getElem (by simp [hl])
    intro j h1 h2
    have hj : j < Z.length := by simpa using h1
    simp only [getElem_map, getElem_range, getElem_zip]
    rw [Opinf.getD_eq_getElem _ _ hj, Opinf.getD_eq_getElem _ _ (by rw [← hl]; exact hj)]
  have hbest : ∀ (D : Mat K) (Z : List (List K)) (O : Mat K), D.WF → (∀ z ∈ Z, z.length = r) → Z ≠ [] →
      Z.length = D.rows.length → O.WF → O.nrows = r → O.ncols = n → MinimalFor pen D Z O →
      ∀ R : List (List K), R.length = r → (∀ a ∈ R, a.length = n) →
        rowsCost pen (zip D.rows Z) O.rows ≤ rowsCost pen (zip D.rows Z) R := by
    intro D Z O hD hZ hne hl hO hOr hOc hm R hR hRr
    have := hm ⟨r, n, R⟩ ⟨hR, hRr⟩ hOr.symm hOc.symm
    rw [hcost D Z hD hZ hne hl R hR n] at this
    have h2 := hcost D Z hD hZ hne hl O.rows (by rw [hO.1, hOr]) O.ncols
    have h3 : (⟨r, O.ncols, O.rows⟩ : Mat K) = O := by cases O; simp only at hOr; rw [hOr]
    rw [h3] at h2
    rwa [h2] at this
  have hzip : ∀ (D : Mat K) (Z : List (List K)) (T : List (ParamData K)),
      D.rows = (T.flatMap (ParamData.points M.hasInputs)).map (fun x => M.learnVector x.1) →
      Z = (T.flatMap (ParamData.points M.hasInputs)).map (fun x => vsub x.2 (M.knownAt lib r x.1)) →
      zip D.rows Z = (T.flatMap (ParamData.points M.hasInputs)).map
        fun x => (M.learnVector x.1, vsub x.2 (M.knownAt lib r x.1)) := by
    intro D Z T h1 h2
    rw [h1, h2, zip_map']
  have hperm : (zip D.rows Z).Perm (zip D'.rows Z') := by
    rw [hzip D Z T a14 a15, hzip D' Z' T' b14 b15]
    exact (h.perm.flatMap_right _).map _
  have hOn : O.ncols = n := by rw [a11, a16]
  have hOn' : O'.ncols = n := by rw [b11, b16]
  obtain ⟨h1, h2⟩ := minimal_rows_agree (hp n) _ _ hperm (fun x hx => a12 _ (of_mem_zip hx).2) O.rows O'.rows
    (by rw [a8.1, a9]) (by rw [b8.1, b9]) (fun a ha => by rw [a8.2 a ha, hOn]) (fun a ha => by rw [b8.2 a ha, hOn'])
    (hbest D Z O a5 a12 a2 a13 a8 a9 hOn (hmin s D O Z a1 a2 a3 a4 a5 a6 a7 a10 a11))
    (hbest D' Z' O' b5 b12 b2 b13 b8 b9 hOn' (hmin s' D' O' Z' b1 b2 b3 b4 b5 b6 b7 b10 b11))
  constructor
  · intro x hx
    refine ⟨_, a19 x hx, ?_⟩
    rw [b19 x ((h.perm.flatMap_right _).mem_iff.1 hx)]
    have := h1 (M.learnVector x.1, vsub x.2 (M.knownAt lib r x.1)) (by
      rw [hzip D Z T a14 a15]
      exact mem_map.2 ⟨x, hx, rfl⟩)
    simp only at this
    rw [this]
  · intro hdet
    have hrows : O.rows = O'.rows := by
      refine rows_equal (pen := pen) (zip D.rows Z) O.rows O'.rows (by rw [a8.1, a9]) (by rw [b8.1, b9])
        (fun a ha => by rw [a8.2 a ha, hOn]) (fun a ha => by rw [b8.2 a ha, hOn']) h1 h2
        (fun x hx => by rw [a5.2 _ (of_mem_zip hx).1, a16]) ?_
      rw [← hn] at hdet
      rcases hdet with hd | hd
      · exact Or.inl hd
      · refine Or.inr fun v hv hz => hd v hv fun x hx => ?_
        refine hz (M.learnVector x.1, vsub x.2 (M.knownAt lib r x.1)) ?_
        rw [hzip D Z T a14 a15]
        exact mem_map.2 ⟨x, hx, rfl⟩
    have hOO : O = O' := by
      obtain ⟨x1, x2, x3⟩ := O
      obtain ⟨y1, y2, y3⟩ := O'
      simp only at hrows hOn hOn' a9 b9
      rw [hrows, hOn, hOn', a9, b9]
    apply sameModel_of
    rw [hlen, ← hOO, a18] at b18
    exact (Prod.mk.inj b18).1.symm

/-- **C111** (`L2Solver`): training a parametric model on the same training parameters in a different order gives a
model with the same values at all training samples; if the regularization is not zero or the data determine the
operators, it gives the same operators. -/
theorem C111_l2 (lib : ItpLib K) (svd : Mat K → Except Err (Svd K)) (hsvd : ∀ D u, svd D = .ok u → IsSVD D u)
    (M M₁ M₂ : PModel K (L2 K K)) (T T' : List (ParamData K)) (r m : Nat)
    (h : TwoOrders lib (l2Solver svd) M M₁ M₂ T T' r m) (s : L2 K K) (hs : M.solver = some s) (lam : K)
    (hlam : s.reg = some lam) :
    AgreeOn lib M M₁ M₂ T ∧ (lam ≠ 0 ∨ M.DeterminedBy (M.learnWidth T.length r m) T → SameModel lib M₁ M₂) := by
  obtain ⟨h1, h2⟩ := orders_core lib _ M M₁ M₂ T T' r m h
    (l2Solver_shaped svd (fun D u h => ⟨(hsvd D u h).psiWF, (hsvd D u h).psiCols⟩) r)
    (fun s D => by simp [l2Solver]) (fun a => lam ^ 2 * sumSq a) (fun n => quadratic_sumSq n lam) (by
      intro s' D O Z c1 hne c3 c7 c8 hZwf hk c11 c12 O' hO' hr hc
      rw [hs] at c1
      cases c1
      obtain ⟨lam', hlam', hmin⟩ := l2Solver_optimal svd hsvd s D O Z hne c3 c7 c8 hZwf hk c11 c12
      rw [hlam] at hlam'
      cases hlam'
      have := hmin O' hO' hr hc
      rwa [sum_map_mul_left, sum_map_mul_left])
  refine ⟨h1, fun hdet => h2 (hdet.imp (fun hl v _ h0 => ?_) id)⟩
  have := (mul_eq_zero.1 h0).resolve_left (pow_ne_zero 2 hl)
  have := sumSq_eq_zero _ this
  rw [this]
  exact fun y hy => (mem_replicate.1 hy).2

/-- **C111** (`PlainSolver`): the two trained models have the same values at all training samples, and the same operators
if the data determine them. -/
theorem C111_plain (lib : ItpLib K) (lstsq : Mat K → Mat K → Except Err (Mat K))
    (hls : ∀ A B X, lstsq A B = .ok X → IsLstsq A B X) (M M₁ M₂ : PModel K (Plain K)) (T T' : List (ParamData K))
    (r m : Nat) (h : TwoOrders lib (plainSolver lstsq) M M₁ M₂ T T' r m) :
    AgreeOn lib M M₁ M₂ T ∧ (M.DeterminedBy (M.learnWidth T.length r m) T → SameModel lib M₁ M₂) := by
  obtain ⟨h1, h2⟩ := orders_core lib _ M M₁ M₂ T T' r m h
    (plainSolver_shaped lstsq (fun A B X h => ⟨(hls A B X h).wf, (hls A B X h).rows, (hls A B X h).cols⟩) r)
    (fun s D => by simp [plainSolver]) (fun a => (0 : K) ^ 2 * sumSq a) (fun n => quadratic_sumSq n 0) (by
      intro s' D O Z c1 hne c3 c7 c8 hZwf hk c11 c12 O' hO' hr hc
      have := plainSolver_optimal lstsq hls s' D O Z hne c3 hZwf hk c11 c12 O' hO' hr hc
      rw [sum_map_mul_left, sum_map_mul_left]
      simpa using this)
  exact ⟨h1, fun hdet => h2 (Or.inr hdet)⟩

/-- **C111** (`TikhonovSolver`), either method: the two trained models have the same values at all training samples, and the
same operators if the regularizer is injective or the data determine them. -/
theorem C111_tikhonov (lib : ItpLib K) (lstsq posSolve : Mat K → Mat K → Except Err (Mat K))
    (hls : ∀ A B X, lstsq A B = .ok X → IsLstsq A B X)
    (hps : ∀ A B X, A.nrows = B.nrows → A.nrows = A.ncols → posSolve A B = .ok X → IsSolution A B X)
    (M M₁ M₂ : PModel K (Tik (Mat K) K)) (T T' : List (ParamData K)) (r m : Nat)
    (h : TwoOrders lib (tikSolver lstsq posSolve) M M₁ M₂ T T' r m) (s : Tik (Mat K) K) (hs : M.solver = some s)
    (G : Mat K) (hG : s.reg = some G) (hwf : G.WF) :
    AgreeOn lib M M₁ M₂ T ∧
      ((∀ v : List K, v.length = M.learnWidth T.length r m → (∀ y ∈ matVec G.rows v, y = 0) → ∀ y ∈ v, y = 0) ∨
        M.DeterminedBy (M.learnWidth T.length r m) T → SameModel lib M₁ M₂) := by
  obtain ⟨h1, h2⟩ := orders_core lib _ M M₁ M₂ T T' r m h
    (tikSolver_shaped lstsq posSolve
      (fun A B X h => ⟨(hls A B X h).wf, (hls A B X h).rows, (hls A B X h).cols⟩)
      (fun A B X e q h => ⟨(hps A B X e q h).wf, (hps A B X e q h).rows.trans q.symm, (hps A B X e q h).cols⟩) r)
    (fun s D => by simp [tikSolver]) (fun a => sumSq (matVec G.rows a)) (fun n => quadratic_matVec n G.rows) (by
      intro s' D O Z c1 hne c3 c7 c8 hZwf hk c11 c12
      rw [hs] at c1
      cases c1
      obtain ⟨G', hG', hmin⟩ := tikSolver_optimal lstsq posSolve hls hps s (fun G' h' => by
        rw [hG] at h'; cases h'; exact hwf) D O Z hne c3 c7 c8 hZwf hk c11 c12
      rw [hG] at hG'
      cases hG'
      exact hmin)
  refine ⟨h1, fun hdet => h2 (hdet.imp (fun hl v hv h0 => ?_) id)⟩
  apply hl v hv
  have := sumSq_eq_zero _ h0
  rw [this]
  exact fun y hy => (mem_replicate.1 hy).2

end

/-! ### Example -/

/-- Two training parameters with the values of `(1 + mu) q + 3`. -/
def parOrd : List (ParamData ℚ) :=
  [⟨.scalar 1, .mat 1 [[1], [2]], .mat 1 [[5], [7]], .scalar 0⟩, ⟨.scalar 4, .mat 1 [[1]], .mat 1 [[8]], .scalar 0⟩]

/-- Least squares restricted to two problems. -/
def parOrdLs (A B : Mat ℚ) : Except Err (Mat ℚ) :=
  if A = ⟨3, 2, [[1, 1], [2, 2], [1, 4]]⟩ ∧ B = ⟨3, 1, [[2], [4], [5]]⟩ then .ok ⟨2, 1, [[1], [1]]⟩
  else if A = ⟨3, 2, [[1, 4], [1, 1], [2, 2]]⟩ ∧ B = ⟨3, 1, [[5], [2], [4]]⟩ then .ok ⟨2, 1, [[1], [1]]⟩
  else .error .linalg

theorem parOrdLs_spec (A B X : Mat ℚ) (h : parOrdLs A B = .ok X) : IsLstsq A B X := by
  unfold parOrdLs at h
  split at h
  · rename_i hc
    obtain ⟨rfl, rfl⟩ := hc
    injection h with h
    subst h
    refine ⟨by decide, rfl, rfl, ?_⟩
    intro j hj
    obtain rfl : j = 0 := by simp at hj; exact hj
    refine ⟨rfl, fun o' _ => ?_⟩
    have : sumSq (vsub (matVec [[1, 1], [2, 2], [1, 4]] (col [[(1 : ℚ)], [1]] 0)) (col [[2], [4], [5]] 0)) = 0 := by
      decide +kernel
    simp only
    rw [this]
    exact sumSq_nonneg _
  · split at h
    · rename_i hc
      obtain ⟨rfl, rfl⟩ := hc
      injection h with h
      subst h
      refine ⟨by decide, rfl, rfl, ?_⟩
      intro j hj
      obtain rfl : j = 0 := by simp at hj; exact hj
      refine ⟨rfl, fun o' _ => ?_⟩
      have : sumSq (vsub (matVec [[1, 4], [1, 1], [2, 2]] (col [[(1 : ℚ)], [1]] 0)) (col [[5], [2], [4]] 0)) = 0 := by
        decide +kernel
      simp only
      rw [this]
      exact sumSq_nonneg _
    · cases h

/-- The hypotheses of `C111_plain` are satisfiable: an affine operator learned from two parameters in both orders. -/
example : TwoOrders toyLib (plainSolver parOrdLs) pOptEx (pOptEx.fitOn toyLib (plainSolver parOrdLs) parOrd).1
      (pOptEx.fitOn toyLib (plainSolver parOrdLs) parOrd.reverse).1 parOrd parOrd.reverse 1 0 ∧
    pOptEx.DeterminedBy (pOptEx.learnWidth parOrd.length 1 0) parOrd ∧
    learnedRows 1 (pOptEx.fitOn toyLib (plainSolver parOrdLs) parOrd.reverse).1.slots = [[1, 1]] := by
  have hfin : ∀ x : PModel ℚ (Plain ℚ) × Except Err Unit, x.2 = .ok () → x = (x.1, .ok ()) := by
    rintro ⟨a, b⟩ rfl
    rfl
  refine ⟨⟨rfl, ?_, (reverse_perm _).symm, ⟨by simp [parOrd], by simp [pOptEx], ?_, ?_, ?_, by decide, ?_, ?_, by simp, ?_, ?_⟩,
    ?_, hfin _ (by decide +kernel), hfin _ (by decide +kernel)⟩, ?_, by decide +kernel⟩
  · intro o ho
    simp only [PModel.ops, pOptEx, map_cons, map_nil, mem_cons, not_mem_nil, or_false] at ho
    rcases ho with rfl | rfl <;> rfl
  · intro a ha
    simp only [parOrd, map_cons, map_nil, mem_cons, not_mem_nil, or_false] at ha
    rcases ha with rfl | rfl <;> simp [Arg.WF, atleast2d]
  · intro a ha
    simp only [parOrd, map_cons, map_nil, mem_cons, not_mem_nil, or_false] at ha
    rcases ha with rfl | rfl <;> simp [Arg.WF, atleast2d]
  · intro us hus
    simp [pOptEx] at hus
  · intro a ha
    simp only [parOrd, map_cons, map_nil, mem_cons, not_mem_nil, or_false] at ha
    rcases ha with rfl | rfl <;> rfl
  · intro hi
    simp [pOptEx] at hi
  · intro o ho
    simp only [PModel.ops, pOptEx, map_cons, map_nil, mem_cons, not_mem_nil, or_false] at ho
    rcases ho with rfl | rfl <;> simp [POp.kind, OpKind.hasInputs]
  · intro s hs hi mu _
    simp only [pOptEx, mem_cons, not_mem_nil, or_false] at hs
    rcases hs with rfl | rfl
    · simp at hi
    · exact ⟨⟨.const, some ⟨1, 1, [[3]]⟩⟩, rfl, rfl, _, rfl, ⟨rfl, by decide⟩, rfl, rfl⟩
  · intro s hs hi
    simp only [pOptEx, mem_cons, not_mem_nil, or_false] at hs
    rcases hs with rfl | rfl
    · exact ⟨by decide, fun mu hmu => ⟨_, rfl, by
        simp only [parOrd, map_cons, map_nil, mem_cons, not_mem_nil, or_false] at hmu
        rcases hmu with rfl | rfl <;> rfl⟩⟩
    · simp at hi
  · intro v hv hz
    have hw : pOptEx.learnWidth parOrd.length 1 0 = 2 := by decide +kernel
    rw [hw] at hv
    obtain ⟨a, b, rfl⟩ := length_eq_two.1 hv
    have h1 := hz ((.scalar 1, [1], none), [5]) (by decide +kernel)
    have h2 := hz ((.scalar 4, [1], none), [8]) (by decide +kernel)
    have e1 : pOptEx.learnVector (.scalar 1, [1], none) = [1, 1] := by decide +kernel
    have e2 : pOptEx.learnVector (.scalar 4, [1], none) = [1, 4] := by decide +kernel
    simp only [e1, e2, dot, zipWith_cons_cons, zipWith_nil_left, sum_cons, sum_nil] at h1 h2
    have hb : b = 0 := by linarith
    have ha : a = 0 := by linarith
    simp [ha, hb]

end Opinf
