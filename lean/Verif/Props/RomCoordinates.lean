import Verif.Props.AffineCoordinates
import Verif.Props.RomOrder
import Verif.Props.ParamRom
import Verif.Model.RomPredict

/-!
# C129: predictions of reduced-order models do not depend on the reduced coordinates

Specification: the encodings of the two reduced-order models differ by `y' = T y + c` with an invertible matrix `T`, and
related reduced states are decoded to the same states.
-/

namespace Opinf

open List

variable {K T B S : Type}

/-- The columns of the second array are those of the first in the coordinates `A y + c`. -/
def SnapAffinely [Semiring K] (r : Nat) (A : List (List K)) (c : List K) : Snap K → Snap K → Prop
  | .vec x, .vec x' => x.length = r ∧ x' = affineMap A c x
  | .mat k rows, .mat k' rows' => (Snap.mat k rows).WF ∧ (Snap.mat k' rows').WF ∧ rows.length = r ∧ rows'.length = r ∧
    (Snap.mat k' rows').columnList = (Snap.mat k rows).columnList.map (affineMap A c)
  | _, _ => False

/-- The second reduced-order model gives the encoding of the first in the coordinates `A y + c`. -/
def EncodesAffinely [Semiring K] {T' B' : Type} (r : Nat) (A : List (List K)) (c : List K) (R : Rom K T B) (R' : Rom K T' B')
    (q : Snap K) : Prop :=
  ∀ y y', R.encode1 q = .ok y → R'.encode1 q = .ok y' → SnapAffinely r A c y y'

/-- The second reduced-order model decodes `A y + c` to what the first makes of `y`. -/
def DecodesAffinely [Semiring K] {T' B' : Type} (r : Nat) (A : List (List K)) (c : List K) (R : Rom K T B) (R' : Rom K T' B') :
    Prop :=
  ∀ y y' p, SnapAffinely r A c y y' → (R.decode y none).2 = .ok p → (R'.decode y' none).2 = .ok p

/-! ### The data -/

theorem trajSamples_map [Zero K] (f : List K → List K) (y z y' z' : Snap K) (u : Option (Snap K))
    (h1 : y'.columnList = y.columnList.map f) (h2 : z'.columnList = z.columnList.map f) :
    trajSamples y' z' u = (trajSamples y z u).map fun x => ⟨f x.q, f x.z, x.u⟩ := by
  have h : y'.ncolumns = y.ncolumns := by rw [← columnList_length, h1, length_map, columnList_length]
  rw [trajSamples, trajSamples, h1, h2, h, map_map]
  generalize inputColumns y.ncolumns u = us
  generalize y.columnList = a
  generalize z.columnList = b
  induction a generalizing b us with
  | nil => rfl
  | cons x a ih =>
    cases b with
    | nil => rfl
    | cons z b =>
      cases us with
      | nil => rfl
      | cons v us =>
        simp only [map_cons, zip_cons_cons, Function.comp_apply, ih]

theorem one_trajectory (R : FRom K T B S) (hc : R.rom.continuous = false) (hasU : Bool) (x t : TrajArgs K)
    (h : R.processAll false hasU false false [x] = (R, .ok (asData hasU [t]))) :
    ∃ e, R.rom.encode1 x.q = .ok e ∧ e.initCols = .ok t.q ∧ e.tailCols = .ok t.z ∧
      (hasU = true → t.u = x.u.firstCols t.q.ncolumns) := by
  obtain ⟨-, es, h1, h2, h3, h4⟩ := (C69_discrete R R hc [x.q] _ false false _).1 h
  simp only [asData, map_cons, map_nil] at h2 h3 h4
  cases h1 with
  | cons e1 e2 =>
    cases e2
    cases h2 with
    | cons f1 f2 =>
      cases h3 with
      | cons g1 g2 =>
        refine ⟨_, e1, f1, g1, fun hu => ?_⟩
        subst hu
        simpa [passIf] using h4

theorem affinely_shift [Semiring K] {r : Nat} {A : List (List K)} {c : List K} {e e' y z y' z' : Snap K}
    (h : SnapAffinely r A c e e') (hy : e.initCols = .ok y) (hz : e.tailCols = .ok z) (hy' : e'.initCols = .ok y')
    (hz' : e'.tailCols = .ok z') :
    (y.WF ∧ z.WF ∧ z.ncolumns = y.ncolumns ∧ y.nrows = r) ∧ (y'.WF ∧ z'.WF ∧ z'.ncolumns = y'.ncolumns ∧ y'.nrows = r) ∧
      y'.columnList = y.columnList.map (affineMap A c) ∧ z'.columnList = z.columnList.map (affineMap A c) ∧
      y.ncolumns = e.ncolumns - 1 ∧ y'.ncolumns = e.ncolumns - 1 := by
  cases e with
  | vec x => cases hy
  | mat k rows =>
    cases e' with
    | vec x => cases hy'
    | mat k' rows' =>
      obtain ⟨w1, w2, r1, r2, hcol⟩ := h
      have hk : k' = k := by
        have := congrArg length hcol
        rwa [length_map, columnList_length, columnList_length] at this
      subst hk
      obtain ⟨a1, a2⟩ := initCols_ok w1 hy
      obtain ⟨a3, a4⟩ := tailCols_ok w1 hz
      obtain ⟨b1, b2⟩ := initCols_ok w2 hy'
      obtain ⟨b3, b4⟩ := tailCols_ok w2 hz'
      refine ⟨⟨a1, a3, ?_⟩, ⟨b1, b3, ?_⟩, by rw [b2, a2, hcol, map_dropLast], by rw [b4, a4, hcol, map_tail], ?_⟩
      · cases hy; cases hz
        exact ⟨rfl, by simp [Snap.nrows, Snap.toArg, atleast2d, r1]⟩
      · cases hy'; cases hz'
        exact ⟨rfl, by simp [Snap.nrows, Snap.toArg, atleast2d, r2]⟩
      · cases hy; cases hy'
        exact ⟨rfl, rfl⟩

theorem forall₂_join {α β γ : Type} {P : α → β → Prop} {Q : α → γ → Prop} {l : List α} {l1 : List β} {l2 : List γ}
    (h1 : Forall₂ P l l1) (h2 : Forall₂ Q l l2) : Forall₂ (fun b g => ∃ a ∈ l, P a b ∧ Q a g) l1 l2 := by
  induction h1 generalizing l2 with
  | nil => cases h2; exact .nil
  | cons h _ ih =>
    cases h2 with
    | cons g gs =>
      refine .cons ⟨_, by simp, h, g⟩ ((ih gs).imp ?_)
      rintro b g ⟨a, ha, h⟩
      exact ⟨a, mem_cons_of_mem _ ha, h⟩

/-- What the trainings of the two reduced-order models use: aligned data, related to each other. -/
theorem affinely_data [Semiring K] {T' B' S' : Type} {r : Nat} {A : List (List K)} {c : List K} (F : FRom K T B S)
    (F' : FRom K T' B' S') (hF : F.rom.continuous = false) (hF' : F'.rom.continuous = false) (hasU : Bool)
    (xs : List (TrajArgs K)) (henc : ∀ x ∈ xs, EncodesAffinely r A c F.rom F'.rom x.q)
    (hu : hasU = true → ∀ x ∈ xs, x.u.WF ∧ ∀ e, F.rom.encode1 x.q = .ok e → e.ncolumns ≤ x.u.ncolumns + 1)
    (d d' : TrainData K) (h : F.processAll false hasU false false xs = (F, .ok d))
    (h' : F'.processAll false hasU false false xs = (F', .ok d')) :
    d.Aligned ∧ d'.Aligned ∧ (∀ Y ∈ d.states, Y.nrows = r) ∧ (∀ Y ∈ d'.states, Y.nrows = r) ∧
      (∀ us ∈ d.inputs, ∀ U ∈ us, ∃ x ∈ xs, ∃ k, U = x.u.firstCols k) ∧
      (∀ us ∈ d'.inputs, ∀ U ∈ us, ∃ x ∈ xs, ∃ k, U = x.u.firstCols k) ∧
      d'.samples = d.samples.map fun x => ⟨affineMap A c x.q, affineMap A c x.z, x.u⟩ := by
  obtain ⟨ts, rfl, g⟩ := C110_each_alone F F false hasU false false xs d h
  obtain ⟨ts', rfl, g'⟩ := C110_each_alone F' F' false hasU false false xs d' h'
  have key : Forall₂ (fun t t' => (t.Aligned hasU ∧ t.q.nrows = r) ∧ (t'.Aligned hasU ∧ t'.q.nrows = r) ∧
      (hasU = true → (∃ x ∈ xs, ∃ k, t.u = x.u.firstCols k) ∧ ∃ x ∈ xs, ∃ k, t'.u = x.u.firstCols k) ∧
      trajSamples t'.q t'.z (passIf hasU t'.u) = (trajSamples t.q t.z (passIf hasU t.u)).map fun x =>
        (⟨affineMap A c x.q, affineMap A c x.z, x.u⟩ : TrainSample K)) ts ts' := by
    refine (forall₂_join g g').imp ?_
    rintro t t' ⟨x, hx, k, k'⟩
    obtain ⟨e, e1, e2, e3, e4⟩ := one_trajectory F hF hasU x t k
    obtain ⟨e', f1, f2, f3, f4⟩ := one_trajectory F' hF' hasU x t' k'
    obtain ⟨⟨s1, s2, s3, s4⟩, ⟨s5, s6, s7, s8⟩, s9, s10, s11, s12⟩ := affinely_shift (henc x hx e e' e1 f1) e2 e3 f2 f3
    have wide : hasU = true → ∀ k, k = e.ncolumns - 1 → (x.u.firstCols k).WF ∧ (x.u.firstCols k).ncolumns = k := by
      intro hh k hk
      obtain ⟨w1, w2⟩ := hu hh x hx
      obtain ⟨v1, v2⟩ := firstCols_columns k x.u w1
      refine ⟨v1, ?_⟩
      have := w2 e e1
      rw [← columnList_length, v2, length_take, columnList_length]
      omega
    refine ⟨⟨⟨s1, s2, s3, fun hh => ?_⟩, s4⟩, ⟨⟨s5, s6, s7, fun hh => ?_⟩, s8⟩, fun hh => ⟨⟨x, hx, _, e4 hh⟩, x, hx, _, f4 hh⟩,
      ?_⟩
    · rw [e4 hh]; exact wide hh _ s11
    · rw [f4 hh]; exact wide hh _ s12
    · have hv : passIf hasU t'.u = passIf hasU t.u := by
        cases hasU with
        | false => rfl
        | true => simp only [passIf, if_true]; rw [e4 rfl, f4 rfl, s11, s12]
      rw [hv]
      exact trajSamples_map _ _ _ _ _ _ s9 s10
  have left : ∀ t ∈ ts, t.Aligned hasU ∧ t.q.nrows = r ∧ (hasU = true → ∃ x ∈ xs, ∃ k, t.u = x.u.firstCols k) := by
    clear h h' g g'
    induction key with
    | nil => simp
    | cons k _ ih =>
      intro t ht
      rcases mem_cons.1 ht with rfl | ht
      · exact ⟨k.1.1, k.1.2, fun hh => (k.2.2.1 hh).1⟩
      · exact ih t ht
  have right : ∀ t ∈ ts', t.Aligned hasU ∧ t.q.nrows = r ∧ (hasU = true → ∃ x ∈ xs, ∃ k, t.u = x.u.firstCols k) := by
    clear h h' g g' left
    induction key with
    | nil => simp
    | cons k _ ih =>
      intro t ht
      rcases mem_cons.1 ht with rfl | ht
      · exact ⟨k.2.1.1, k.2.1.2, fun hh => (k.2.2.1 hh).2⟩
      · exact ih t ht
  have ins : ∀ l : List (TrajArgs K), (∀ t ∈ l, hasU = true → ∃ x ∈ xs, ∃ k, t.u = x.u.firstCols k) →
      ∀ us ∈ (asData hasU l).inputs, ∀ U ∈ us, ∃ x ∈ xs, ∃ k, U = x.u.firstCols k := by
    intro l hl us hus U hU
    cases hasU with
    | false => cases hus
    | true =>
      cases hus
      obtain ⟨t, ht, rfl⟩ := mem_map.1 hU
      exact hl t ht rfl
  refine ⟨(asData_aligned _ _).2 fun t ht => (left t ht).1, (asData_aligned _ _).2 fun t ht => (right t ht).1, ?_, ?_,
    ins ts fun t ht => (left t ht).2.2, ins ts' fun t ht => (right t ht).2.2, ?_⟩
  · intro Y hY
    obtain ⟨t, ht, rfl⟩ := mem_map.1 hY
    exact (left t ht).2.1
  · intro Y hY
    obtain ⟨t, ht, rfl⟩ := mem_map.1 hY
    exact (right t ht).2.1
  · rw [asData_samples, asData_samples]
    clear h h' g g' left right ins
    induction key with
    | nil => rfl
    | cons k _ ih =>
      rw [flatMap_cons, flatMap_cons, map_append, ih, k.2.2.2]

theorem columnList_columnsSnap [Zero K] (r : Nat) (L : List (List K)) (h : ∀ x ∈ L, x.length = r) :
    (columnsSnap r L).WF ∧ (columnsSnap r L).columnList = L := by
  constructor
  · intro a ha
    obtain ⟨i, _, rfl⟩ := mem_map.1 ha
    simp
  · rw [columnsSnap, Snap.columnList, Snap.toArg, atleast2d]
    refine ext_getElem (by simp [transpose]) fun j h1 h2 => ?_
    have hl := h _ (getElem_mem h2)
    refine ext_getElem (by simp [transpose, hl]) fun i i1 i2 => ?_
    simp [transpose, Opinf.getD_eq_getElem _ _ h2, h2, i2]

/-! ### Property theorems -/

section

variable [Field K] [LinearOrder K] [IsStrictOrderedRing K]

/-- **C129.** Train two reduced-order models with fully discrete models of the same structure with the same trajectories,
without regularization. If their encodings of the training states and of the initial state differ by `y' = A y + c` with an
invertible matrix `A`, if related reduced states are decoded to the same, and if the data determine the operators, then
every prediction of the first one is a prediction of the second one. Shifts `c` are allowed if the constant operator is
learned and with each class of operators those of lower degree. -/
theorem C129_predict {T' B' : Type} (lstsq : Mat K → Mat K → Except Err (Mat K))
    (hls : ∀ A B X, lstsq A B = .ok X → IsLstsq A B X) (F G : FRom K T B (Plain K)) (F' G' : FRom K T' B' (Plain K))
    (hF : F.rom.continuous = false) (hF' : F'.rom.continuous = false) (hM : F.model.Inv) (hM' : F'.model.Inv)
    (hint : F.model.intrusive = false) (hint' : F'.model.intrusive = false)
    (hsl : F'.model.slots.map (fun s => (s.op.kind, s.infer)) = F.model.slots.map fun s => (s.op.kind, s.infer))
    (hall : ∀ s ∈ F.model.slots, s.infer = true) (r m : Nat) (hr : 0 < r) (A U : List (List K)) (hA : Inverts r A U)
    (c : List K) (hcl : c.length = r) (hk : Absorbs r F.model.toInfer c c) (hasU : Bool) (xs : List (TrajArgs K))
    (hu : hasU = true → ∀ x ∈ xs, x.u.WF ∧ (∀ k, (x.u.firstCols k).nrows = m) ∧
      ∀ e, F.rom.encode1 x.q = .ok e → e.ncolumns ≤ x.u.ncolumns + 1)
    (h : F.fitAll (plainSolver lstsq) false hasU false false xs = (G, .ok ()))
    (h' : F'.fitAll (plainSolver lstsq) false hasU false false xs = (G', .ok ()))
    (hdet : ∀ d, F.processAll false hasU false false xs = (F, .ok d) →
      Determines F.model.toInfer (F.model.toInfer.map fun o => o.dim r m).sum d.samples)
    (henc : ∀ x ∈ xs, EncodesAffinely r A c F.rom F'.rom x.q) (hdec : DecodesAffinely r A c F.rom F'.rom)
    (q0 : Snap K) (hq0 : EncodesAffinely r A c F.rom F'.rom q0) (hq0' : ∃ y', F'.rom.encode1 q0 = .ok y') (n : Int)
    (inputs : PredInput K) (hin : ∀ a, inputs = .arr a → a.WF) (p : Snap K) (hp : G.predict q0 n inputs = .ok p) :
    G'.predict q0 n inputs = .ok p := by
  obtain ⟨R1, d, g1, g2, -, g3⟩ := fitAll_training _ F G hM hint false hasU false false xs h
  obtain ⟨R1', d', g1', g2', -, g3'⟩ := fitAll_training _ F' G' hM' hint' false hasU false false xs h'
  obtain rfl := (process_keeps_rest F R1 _ _ _ _ xs d g1).2 ⟨rfl, rfl⟩
  obtain rfl := (process_keeps_rest F' R1' _ _ _ _ xs d' g1').2 ⟨rfl, rfl⟩
  obtain ⟨d1, d2, d3, d4, d5, d6, d7⟩ := affinely_data R1 R1' hF hF' hasU xs henc
    (fun hh x hx => ⟨(hu hh x hx).1, (hu hh x hx).2.2⟩) d d' g1 g1'
  have hrow : ∀ D : TrainData K, D.inputs.isSome = hasU → (∀ us ∈ D.inputs, ∀ U ∈ us, ∃ x ∈ xs, ∃ k, U = x.u.firstCols k) →
      ∀ us ∈ D.inputs, ∀ U ∈ us, U.nrows = m := by
    intro D hD hx us hus U hU
    obtain ⟨x, hx, k, rfl⟩ := hx us hus U hU
    exact (hu (by rw [← hD, Option.isSome_iff_exists]; exact ⟨us, hus⟩) x hx).2.1 k
  have hsome : ∀ {T B S : Type} (F : FRom K T B S) (d : TrainData K),
      F.processAll false hasU false false xs = (F, .ok d) → d.inputs.isSome = hasU := by
    intro T B S F d h
    obtain ⟨ts, rfl, -⟩ := C110_each_alone F F false hasU false false xs d h
    cases hasU <;> rfl
  obtain ⟨t, t1, t2, t3, t4⟩ := g3 r m hr d1 d3 (hrow d (hsome R1 d g1) d5)
  obtain ⟨t', t1', t2', t3', t4'⟩ := g3' r m hr d2 d4 (hrow d' (hsome R1' d' g1') d6)
  have hall' : ∀ s ∈ R1'.model.slots, s.infer = true := by
    intro s hs
    have : (s.op.kind, s.infer) ∈ R1.model.slots.map fun s => (s.op.kind, s.infer) := by
      rw [← hsl]; exact mem_map.2 ⟨s, hs, rfl⟩
    obtain ⟨s', hs', e⟩ := mem_map.1 this
    rw [← (Prod.mk.inj e).2]
    exact hall s' hs'
  have haff : Affinely r m A c c t t' := by
    refine ⟨by rw [t1, t1']; exact hsl, by rw [t3, t3']; exact d7, fun q u hq _ => ?_⟩
    rw [t1, t1']
    exact C128_nothing_known _ _ hall hall' A hA.isMat c hcl q u hq
  have hdec' : t.Decided r m := by
    rw [Training.Decided, t1, t3]
    exact hdet d g1
  rw [FRom.predict, C47_predict] at hp ⊢
  obtain ⟨z, zs, p1, p2, p3⟩ := hp
  rw [g2] at p1 p3
  rw [g2']
  obtain ⟨y', hy'⟩ := hq0'
  have hz := hq0 z y' p1 hy'
  cases z with
  | mat k rows => cases p2
  | vec z =>
    cases y' with
    | mat k rows => exact hz.elim
    | vec z' =>
      obtain ⟨hz1, rfl⟩ := hz
      simp only [Model.predictArr] at p2
      cases hL : G.model.predict z n inputs with
      | error e => rw [hL] at p2; cases p2
      | ok L =>
        rw [hL] at p2
        cases p2
        rw [← t2] at hL
        have hlen := (predicted_lengths lstsq hls t r m t4 z n inputs hin L hL).2
        have hL' := C128_predict lstsq hls t t' r m t4 t4' A U hA c hcl (by rw [t1]; exact hk) haff hdec' z n inputs hin L hL
        rw [t2'] at hL'
        have hl2 : (affineMap A c z).length = r := by rw [affineMap, length_vadd, length_matVec, hA.isMat.1, hcl, min_self]
        have hlen' : ∀ x ∈ L.map (affineMap A c), x.length = r := by
          intro x hx
          obtain ⟨y, _, rfl⟩ := mem_map.1 hx
          rw [affineMap, length_vadd, length_matVec, hA.isMat.1, hcl, min_self]
        refine ⟨.vec (affineMap A c z), columnsSnap r (L.map (affineMap A c)), hy', ?_, hdec _ _ p ?_ p3⟩
        · simp only [Model.predictArr]
          rw [hL', hl2]
          rfl
        · rw [hz1]
          obtain ⟨w1, w2⟩ := columnList_columnsSnap r L hlen
          obtain ⟨w3, w4⟩ := columnList_columnsSnap r (L.map (affineMap A c)) hlen'
          exact ⟨w1, w3, by simp [transpose], by simp [transpose], by
            refine w4.trans ?_
            exact congrArg (map (affineMap A c)) w2.symm⟩

end

/-! ### Rotated bases -/

/-- A basis whose vectors are combined by the matrix `A`: the rows of `V'ᵀ` are those of `A Vᵀ`. -/
structure RotatedBasis [Semiring K] (r n : Nat) (A : List (List K)) (b b' : LinB K) : Prop where
  weights : b'.weights = b.weights
  entries : ∃ V V' : Cols K, b.entries = some V ∧ b'.entries = some V' ∧ V.n = n ∧ V'.n = n ∧ V.WF ∧ V.cols.length = r ∧
    V'.cols = matMul n A V.cols

/-- The arrays that the basis compresses are rectangular. -/
def Rom.Rectangular (R : Rom K T B) (q : Snap K) : Prop :=
  ∀ L X, LiftedTo R.lifter q L → TransformedTo R.transformer L X → X.WF

section

variable [Field K]

theorem columnList_matMul (k : Nat) (A rows : List (List K)) (h : (Snap.mat k rows).WF) :
    (Snap.mat k (matMul k A rows)).columnList = (Snap.mat k rows).columnList.map (matVec A) := by
  simp only [Snap.columnList, Snap.toArg, atleast2d, transpose, map_map]
  refine map_congr_left fun j hj => ?_
  simp only [matMul, map_map, matVec, Function.comp_apply]
  exact map_congr_left fun a _ => getD_vecMat k a rows h j (mem_range.1 hj)

theorem applyWeights_WF {W : Option (Weights K)} {Y X : Snap K} (h : Y.WF) (hX : applyWeights W Y = .ok X) : X.WF := by
  match W, hX with
  | none, hX => cases hX; exact h
  | some (.diag w), hX =>
    rw [applyWeights] at hX
    split at hX
    · cases hX
      exact h.rowMap _
    · cases hX
  | some (.full A), hX =>
    unfold applyWeights matSnap at hX
    simp only at hX
    split at hX
    · cases hX
    · cases Y with
      | vec xs => cases hX; trivial
      | mat k rows => cases hX; exact matMul_rows k A.rows rows h

theorem affineMap_zero {r : Nat} {A : List (List K)} (hA : A.length = r) (x : List K) :
    affineMap A (replicate r 0) x = matVec A x := by
  rw [affineMap, vadd_zeros_right _ _ (by rw [length_matVec, hA])]

theorem dot_rotated {r : Nat} {A : List (List K)} (hA : Inverts r A (transpose r A)) (x y : List K) (hx : x.length = r) :
    dot (matVec A x) (matVec A y) = dot x y := by
  have e := hA.left x hx
  rw [matVec_transpose r A _ hA.isMat.2] at e
  conv_rhs => rw [← e]
  rw [dot_vecMat r _ _ _ hA.isMat.2]

theorem rotated_rows {r n : Nat} {A : List (List K)} (hA : Inverts r A (transpose r A)) {V : List (List K)}
    (hV : ∀ c ∈ V, c.length = n) (hr : V.length = r) (y : List K) (hy : y.length = r) :
    matVec (transpose n (matMul n A V)) (matVec A y) = matVec (transpose n V) y := by
  simp only [matVec, transpose, map_map]
  refine map_congr_left fun j hj => ?_
  have e : (matMul n A V).map (fun a => a.getD j 0) = matVec A (V.map fun a => a.getD j 0) := by
    simp only [matMul, map_map, matVec]
    exact map_congr_left fun a _ => getD_vecMat n a V hV j (mem_range.1 hj)
  simp only [Function.comp_apply]
  rw [e]
  exact dot_rotated hA _ _ (by rw [length_map, hr])

/-- **C129** (rotated bases). If the basis vectors of the second basis are those of the first one combined by an orthogonal
matrix, for example with other signs or in another order, the encodings differ by this matrix, and related reduced states are
decoded to the same. -/
theorem C129_rotated {r n : Nat} {A : List (List K)} (hA : Inverts r A (transpose r A)) (R R' : Rom K T (LinB K))
    (b b' : LinB K) (hb : R.basis = some (linI, b)) (hR : R' = { R with basis := some (linI, b') })
    (hrot : RotatedBasis r n A b b') :
    (∀ q, R.Rectangular q → EncodesAffinely r A (replicate r 0) R R' q) ∧
      (∀ q y, R.encode1 q = .ok y → ∃ y', R'.encode1 q = .ok y') ∧ DecodesAffinely r A (replicate r 0) R R' := by
  obtain ⟨hw, V, V', e1, e2, n1, n2, hV, hr, hV'⟩ := hrot
  have hz : ∀ x, affineMap A (replicate r 0) x = matVec A x := affineMap_zero hA.isMat.1
  have hVn : ∀ c ∈ V.cols, c.length = n := fun c hc => (hV c hc).trans n1
  have comp : ∀ X, b.compress X = (applyWeights b.weights X >>= matSnap V.cols n) := fun X => by
    simp only [LinB.compress, LinB.need, e1, bind, Except.bind, n1]
  have comp' : ∀ X, b'.compress X = (applyWeights b.weights X >>= matSnap (matMul n A V.cols) n) := fun X => by
    simp only [LinB.compress, LinB.need, e2, bind, Except.bind, n2, hw, hV']
  have hl : V'.cols.length = r := by rw [hV', matMul, length_map, hA.isMat.1]
  subst hR
  refine ⟨?_, ?_, ?_⟩
  · intro q hq y y' h h'
    rw [C47_encode] at h h'
    obtain ⟨L, X, l1, l2, l3⟩ := h
    obtain ⟨L', X', l1', l2', l3'⟩ := h'
    have hXX : X' = X := by
      have : L' = L := by
        simp only at l1'
        cases hR : R.lifter with
        | none => rw [hR] at l1 l1'; exact Eq.trans l1' l1.symm
        | some l =>
          rw [hR] at l1 l1'
          simp only [LiftedTo] at l1 l1'
          rw [l1] at l1'
          exact (Except.ok.inj l1').symm
      subst this
      simp only at l2'
      cases hR : R.transformer with
      | none => rw [hR] at l2 l2'; exact Eq.trans l2' l2.symm
      | some It =>
        obtain ⟨I, t⟩ := It
        rw [hR] at l2 l2'
        simp only [TransformedTo] at l2 l2'
        rw [l2] at l2'
        exact (Except.ok.inj l2').symm
    subst hXX
    have hX := hq L _ l1 l2
    rw [hb] at l3
    have l3 : b.compress X' = .ok y := l3
    have l3' : b'.compress X' = .ok y' := l3'
    rw [comp] at l3
    rw [comp'] at l3'
    cases hY : applyWeights b.weights X' with
    | error e => rw [hY] at l3; cases l3
    | ok Y =>
      have hYw := applyWeights_WF hX hY
      rw [hY] at l3 l3'
      simp only [bind, Except.bind, matSnap] at l3 l3'
      split at l3
      · cases l3
      · rename_i hlen
        rw [if_neg hlen] at l3'
        cases Y with
        | vec xs =>
          cases l3; cases l3'
          exact ⟨by rw [length_matVec, hr], by rw [hz, matVec_matMul _ _ _ _ hVn]⟩
        | mat k rows =>
          cases l3; cases l3'
          refine ⟨matMul_rows k _ rows hYw, matMul_rows k _ rows hYw, by rw [matMul, length_map, hr],
            by rw [matMul, length_map, matMul, length_map, hA.isMat.1], ?_⟩
          rw [columnList_matMul _ _ _ hYw, columnList_matMul _ _ _ hYw, map_map]
          exact map_congr_left fun x _ => by rw [Function.comp_apply, hz, matVec_matMul _ _ _ _ hVn]
  · intro q y h
    rw [C47_encode] at h
    obtain ⟨L, X, l1, l2, l3⟩ := h
    rw [hb] at l3
    have l3 : b.compress X = .ok y := l3
    rw [comp] at l3
    have : ∃ y', b'.compress X = .ok y' := by
      rw [comp']
      cases hY : applyWeights b.weights X with
      | error e => rw [hY] at l3; cases l3
      | ok Y =>
        rw [hY] at l3
        simp only [bind, Except.bind, matSnap] at l3 ⊢
        split at l3
        · cases l3
        · rename_i hlen
          rw [if_neg hlen]
          cases Y with
          | vec xs => exact ⟨_, rfl⟩
          | mat k rows => exact ⟨_, rfl⟩
    obtain ⟨y', hy'⟩ := this
    exact ⟨y', (C47_encode _ _ _).2 ⟨L, X, l1, l2, hy'⟩⟩
  · intro y y' p hy h
    rw [C47_decode] at h ⊢
    obtain ⟨X, L, l1, l2, l3⟩ := h
    refine ⟨X, L, ?_, ?_, l3⟩
    · rw [hb] at l1
      have l1 : b.decompress y none = .ok X := l1
      show b'.decompress y' none = .ok X
      simp only [LinB.decompress, LinB.need, e1, e2, LinB.rowsAt, bind, Except.bind, n1, n2, hr, hl, matSnap, hV'] at l1 ⊢
      have hl' : (matMul n A V.cols).length = r := by rw [← hV']; exact hl
      rw [hl']
      split at l1
      · cases l1
      · cases y with
        | vec x =>
          cases y' with
          | mat k rows => exact hy.elim
          | vec x' =>
            obtain ⟨h1, rfl⟩ := hy
            cases l1
            rw [if_neg (by simp [Snap.len, affineMap, length_vadd, length_matVec, hA.isMat.1])]
            simp only [hz]
            rw [rotated_rows hA hVn hr x h1]
        | mat k rows =>
          cases y' with
          | vec x' => exact hy.elim
          | mat k' rows' =>
            obtain ⟨h1, h2, h3, h4, h5⟩ := hy
            have hk : k' = k := by
              have := congrArg length h5
              rwa [length_map, columnList_length, columnList_length] at this
            subst hk
            cases l1
            rw [if_neg (by simp [Snap.len, h4])]
            refine congrArg Except.ok ?_
            have w1 : (Snap.mat k' (matMul k' (transpose n V.cols) rows)).WF := matMul_rows k' _ rows h1
            have w2 : (Snap.mat k' (matMul k' (transpose n (matMul n A V.cols)) rows')).WF := matMul_rows k' _ rows' h2
            rw [← columnsSnap_columnList _ _ w1, ← columnsSnap_columnList _ _ w2, columnList_matMul _ _ _ h1,
              columnList_matMul _ _ _ h2, h5, map_map]
            have hlen : (matMul k' (transpose n (matMul n A V.cols)) rows').length =
                (matMul k' (transpose n V.cols) rows).length := by simp [matMul, transpose]
            rw [hlen]
            refine congrArg _ (map_congr_left fun x hx => ?_)
            rw [Function.comp_apply, hz]
            refine rotated_rows hA hVn hr x ?_
            simp only [Snap.columnList, Snap.toArg, atleast2d, transpose] at hx
            obtain ⟨j, _, rfl⟩ := mem_map.1 hx
            rw [length_map, h3]
    · rw [hb] at l2
      exact l2

/-- **C129** (rotated bases, predictions). The predictions of two reduced-order models whose linear bases differ by an
orthogonal matrix are the same, for fully discrete models of the same structure that are trained without regularization with
the same trajectories, if these determine the operators. -/
theorem C129_rotated_predict [LinearOrder K] [IsStrictOrderedRing K] (lstsq : Mat K → Mat K → Except Err (Mat K))
    (hls : ∀ A B X, lstsq A B = .ok X → IsLstsq A B X) (F F' G G' : FRom K T (LinB K) (Plain K))
    (hF : F.rom.continuous = false) (hM : F.model.Inv) (hM' : F'.model.Inv)
    (hint : F.model.intrusive = false) (hint' : F'.model.intrusive = false)
    (hsl : F'.model.slots.map (fun s => (s.op.kind, s.infer)) = F.model.slots.map fun s => (s.op.kind, s.infer))
    (hall : ∀ s ∈ F.model.slots, s.infer = true) (r m n : Nat) (hr : 0 < r) (A : List (List K))
    (hA : Inverts r A (transpose r A)) (b b' : LinB K) (hb : F.rom.basis = some (linI, b))
    (hR : F'.rom = { F.rom with basis := some (linI, b') }) (hrot : RotatedBasis r n A b b') (hasU : Bool)
    (xs : List (TrajArgs K)) (hxs : ∀ x ∈ xs, F.rom.Rectangular x.q)
    (hu : hasU = true → ∀ x ∈ xs, x.u.WF ∧ (∀ k, (x.u.firstCols k).nrows = m) ∧
      ∀ e, F.rom.encode1 x.q = .ok e → e.ncolumns ≤ x.u.ncolumns + 1)
    (h : F.fitAll (plainSolver lstsq) false hasU false false xs = (G, .ok ()))
    (h' : F'.fitAll (plainSolver lstsq) false hasU false false xs = (G', .ok ()))
    (hdet : ∀ d, F.processAll false hasU false false xs = (F, .ok d) →
      Determines F.model.toInfer (F.model.toInfer.map fun o => o.dim r m).sum d.samples)
    (q0 : Snap K) (hq0 : F.rom.Rectangular q0) (N : Int)
    (inputs : PredInput K) (hin : ∀ a, inputs = .arr a → a.WF) (p : Snap K) (hp : G.predict q0 N inputs = .ok p) :
    G'.predict q0 N inputs = .ok p := by
  obtain ⟨c1, c2, c3⟩ := C129_rotated hA F.rom F'.rom b b' hb hR hrot
  refine C129_predict lstsq hls F G F' G' hF (by rw [hR]; exact hF) hM hM' hint hint' hsl hall r m hr A _ hA (replicate r 0)
    (by simp) (.inl ⟨rfl, rfl⟩) hasU xs hu h h' hdet (fun x hx => c1 x.q (hxs x hx)) c3 q0 (c1 q0 hq0) ?_ N inputs hin p hp
  obtain ⟨R1, d, g1, g2, -, -⟩ := fitAll_training _ F G hM hint false hasU false false xs h
  obtain rfl := (process_keeps_rest F R1 _ _ _ _ xs d g1).2 ⟨rfl, rfl⟩
  rw [FRom.predict, C47_predict] at hp
  obtain ⟨z, zs, p1, -, -⟩ := hp
  rw [g2] at p1
  exact c2 q0 z p1

end

/-! ### Non-vacuity -/

/-- The bases with the vectors `1` and `-1`. -/
def plusB : LinB ℚ := ⟨none, some 1, some 1, some ⟨1, [[1]]⟩, none⟩
def minusB : LinB ℚ := ⟨none, some 1, some 1, some ⟨1, [[-1]]⟩, none⟩

/-- A least-squares routine for the two problems of the example. -/
def signLs (A B : Mat ℚ) : Except Err (Mat ℚ) :=
  if A = ⟨2, 1, [[1], [2]]⟩ ∧ B = ⟨2, 1, [[2], [4]]⟩ then .ok ⟨1, 1, [[2]]⟩
  else if A = ⟨2, 1, [[-1], [-2]]⟩ ∧ B = ⟨2, 1, [[-2], [-4]]⟩ then .ok ⟨1, 1, [[2]]⟩
  else .error .linalg

theorem signLs_spec (A B X : Mat ℚ) (h : signLs A B = .ok X) : IsLstsq A B X := by
  unfold signLs at h
  split at h
  · rename_i hc
    obtain ⟨rfl, rfl⟩ := hc
    injection h with h
    subst h
    refine exact_lstsq (by decide) rfl rfl fun j hj => ?_
    match j, hj with
    | 0, _ => exact ⟨rfl, by decide +kernel⟩
  split at h
  · rename_i hc
    obtain ⟨rfl, rfl⟩ := hc
    injection h with h
    subst h
    refine exact_lstsq (by decide) rfl rfl fun j hj => ?_
    match j, hj with
    | 0, _ => exact ⟨rfl, by decide +kernel⟩
  · cases h

/-- Reduced-order models with one linear operator to be learned, and the trajectory `1, 2, 4`. -/
def signRom (b : LinB ℚ) : FRom ℚ Unit (LinB ℚ) (Plain ℚ) := ⟨⟨none, none, some (linI, b), false⟩, none, cenModel [.lin]⟩
def signTraj : TrajArgs ℚ := ⟨.mat 3 [[1, 2, 4]], .vec [], .vec []⟩
def signFit (b : LinB ℚ) : FRom ℚ Unit (LinB ℚ) (Plain ℚ) :=
  ((signRom b).fitAll (plainSolver signLs) false false false false [signTraj]).1

theorem sign_rotated : RotatedBasis 1 1 [[-1]] plusB minusB :=
  ⟨rfl, ⟨1, [[1]]⟩, ⟨1, [[-1]]⟩, rfl, rfl, rfl, rfl, by unfold Cols.WF; decide +kernel, rfl, by decide +kernel⟩

theorem sign_inverts : Inverts (K := ℚ) 1 [[-1]] (transpose 1 [[-1]]) := by
  refine ⟨⟨rfl, by simp⟩, ⟨rfl, by simp [transpose]⟩, fun x hx => ?_, fun x hx => ?_⟩ <;>
  · match x, hx with
    | [a], _ => simp [matVec, dot, transpose]

-- all hypotheses of `C129_rotated_predict`, and so those of `C129_predict`, hold for two bases of different signs
example : (signFit minusB).predict (.vec [3]) 3 .none = .ok (.mat 3 [[3, 6, 12]]) := by
  refine C129_rotated_predict signLs signLs_spec (signRom plusB) (signRom minusB) (signFit plusB) (signFit minusB) rfl
    (cenModel_inv _ (by simp) rfl) (cenModel_inv _ (by simp) rfl) rfl rfl rfl (by decide +kernel) 1 0 1 (by decide) [[-1]]
    sign_inverts plusB minusB rfl rfl sign_rotated false [signTraj] ?_ (fun h => by cases h) (Prod.ext rfl (by decide +kernel))
    (Prod.ext rfl (by decide +kernel)) ?_ (.vec [3]) ?_ 3 .none (fun a h => by cases h) (.mat 3 [[3, 6, 12]])
    (by decide +kernel)
  · intro x hx L X h1 h2
    obtain rfl := mem_singleton.1 hx
    cases h2; cases h1
    exact (show ∀ row ∈ [[(1 : ℚ), 2, 4]], row.length = 3 by decide +kernel)
  · intro d hd v hv h
    have e : ((signRom plusB).processAll false false false false [signTraj]).2 =
        .ok ⟨[.mat 2 [[1, 2]]], [.mat 2 [[2, 4]]], none⟩ := by decide +kernel
    rw [hd] at e
    cases e
    obtain ⟨a, rfl⟩ : ∃ a, v = [a] := by
      match v, hv with
      | [a], _ => exact ⟨a, rfl⟩
    have h0 := h ⟨[1], [2], none⟩ (by
      simp [TrainData.samples, inputList, trajSamples, inputColumns, Snap.columnList, Snap.toArg, atleast2d, transpose,
        Snap.ncolumns, range_succ])
    simp [signRom, cenModel, Model.toInfer, dataVector, OpKind.dataCol, dot] at h0
    simp [h0]
  · intro L X h1 h2
    cases h2; cases h1
    trivial

end Opinf
