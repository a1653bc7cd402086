import Verif.Props.RomCoordinates
import Verif.Props.TransformInv

/-!
# C129: without a basis, predictions do not depend on shifting and scaling

Specification: both transformers act on row `i` as `q ↦ a i * q + c i` with `a i` not zero (`TfI.Affine`), as the transformers
of the package do.
-/

namespace Opinf

open List

variable {K T B : Type}

section

variable [Field K]

/-- The transformer, if there is one, acts on row `i` as `q ↦ a i * q + c i`. -/
def ActsOnRows (o : Option (TfI K T × T)) (n : Nat) (a c : Nat → K) : Prop :=
  match o with
  | none => ∀ i, a i = 1 ∧ c i = 0
  | some (I, t) => I.Affine t n a c

/-- The diagonal matrix with the entries `d 0, .., d (n - 1)`. -/
def diagRows (n : Nat) (d : Nat → K) : List (List K) :=
  (range n).map fun i => vsmul (d i) ((range n).map fun j => if i = j then 1 else 0)

theorem matVec_diagRows (n : Nat) (d : Nat → K) (x : List K) (hx : x.length = n) :
    matVec (diagRows n d) x = x.mapIdx fun i y => d i * y := by
  refine ext_getElem (by simp [matVec, diagRows, hx]) fun i h1 h2 => ?_
  have hi : i < n := by simpa [matVec, diagRows] using h1
  simp only [matVec, diagRows, map_map, getElem_map, getElem_range, Function.comp_apply, getElem_mapIdx]
  rw [dot_vsmul_left, dot_comm', dot_unit n i x hx hi, Opinf.getD_eq_getElem _ _ (by rw [hx]; exact hi)]

theorem diagRows_isMat (n : Nat) (d : Nat → K) : IsMat n n (diagRows n d) := by
  refine ⟨by simp [diagRows], fun a ha => ?_⟩
  obtain ⟨i, _, rfl⟩ := mem_map.1 ha
  simp [vsmul]

theorem diagRows_inverts (n : Nat) (d : Nat → K) (hd : ∀ i < n, d i ≠ 0) :
    Inverts n (diagRows n d) (diagRows n fun i => (d i)⁻¹) := by
  refine ⟨diagRows_isMat n d, diagRows_isMat n _, fun x hx => ?_, fun x hx => ?_⟩ <;>
  · rw [matVec_diagRows n _ x hx, matVec_diagRows n _ _ (by simpa using hx), mapIdx_mapIdx]
    refine ext_getElem (by simp) fun i h1 h2 => ?_
    have := hd i (by rw [← hx]; exact h2)
    simp only [getElem_mapIdx, Function.comp_apply]
    field_simp

/-- The shifts as a list. -/
def shiftList (n : Nat) (e : Nat → K) : List K := (range n).map e

theorem affineMap_diag (n : Nat) (d e : Nat → K) (x : List K) (hx : x.length = n) :
    affineMap (diagRows n d) (shiftList n e) x = x.mapIdx fun i y => d i * y + e i := by
  rw [affineMap, matVec_diagRows n d x hx]
  refine ext_getElem (by simp [vadd, shiftList, hx]) fun i h1 h2 => ?_
  simp [vadd, shiftList]

theorem rowMap_columns (k : Nat) (rows : List (List K)) (h : (Snap.mat k rows).WF) (f : Nat → K → K) :
    ((Snap.mat k rows).rowMap f).columnList = (Snap.mat k rows).columnList.map fun x => x.mapIdx f := by
  simp only [Snap.columnList, Snap.toArg, Snap.rowMap, atleast2d, transpose, map_map]
  refine map_congr_left fun j hj => ?_
  refine ext_getElem (by simp) fun i h1 h2 => ?_
  have hi : i < rows.length := by simpa using h1
  have hl := h _ (getElem_mem hi)
  have hj' : j < (rows[i]).length := by rw [hl]; exact mem_range.1 hj
  simp [hj']

/-- Arrays related by a diagonal matrix and a shift. -/
theorem snapAffinely_rowMap {n : Nat} (d e : Nat → K) (Y : Snap K) (hw : Y.WF) (hl : Y.len = n) :
    SnapAffinely n (diagRows n d) (shiftList n e) Y (Y.rowMap fun i y => d i * y + e i) := by
  cases Y with
  | vec x => exact ⟨hl, by rw [affineMap_diag n d e x hl]⟩
  | mat k rows =>
    refine ⟨hw, hw.rowMap _, hl, by rw [length_mapIdx]; exact hl, ?_⟩
    refine (rowMap_columns k rows hw _).trans (map_congr_left fun x hx => ?_)
    refine (affineMap_diag n d e x ?_).symm
    simp only [Snap.columnList, Snap.toArg, atleast2d, transpose] at hx
    obtain ⟨j, _, rfl⟩ := mem_map.1 hx
    rw [length_map]
    exact hl

theorem snapAffinely_unique {n : Nat} {A : List (List K)} {c : List K} {Y Z Z' : Snap K} (h : SnapAffinely n A c Y Z)
    (h' : SnapAffinely n A c Y Z') : Z = Z' := by
  cases Y with
  | vec x =>
    cases Z with
    | mat k rows => exact h.elim
    | vec z =>
      cases Z' with
      | mat k rows => exact h'.elim
      | vec z' => rw [h.2, h'.2]
  | mat k rows =>
    cases Z with
    | vec z => exact h.elim
    | mat kz z =>
      cases Z' with
      | vec z' => exact h'.elim
      | mat kz' z' =>
        obtain ⟨h1, h2, h3, h4, h5⟩ := h
        obtain ⟨g1, g2, g3, g4, g5⟩ := h'
        rw [← columnsSnap_columnList _ _ h2, ← columnsSnap_columnList _ _ g2, h5, g5, h4, g4]

theorem snapAffinely_shape {n : Nat} {A : List (List K)} {c : List K} {Y Z : Snap K} (h : SnapAffinely n A c Y Z) :
    Y.WF ∧ Y.len = n := by
  cases Y with
  | vec x =>
    cases Z with
    | mat k rows => exact h.elim
    | vec z => exact ⟨trivial, h.1⟩
  | mat k rows =>
    cases Z with
    | vec z => exact h.elim
    | mat kz z => exact ⟨h.1, h.2.2.1⟩

theorem actsOnRows_transform {o : Option (TfI K T × T)} {n : Nat} {a c : Nat → K} (h : ActsOnRows o n a c) {L : Snap K}
    (hL : L.len = n) (X : Snap K) : TransformedTo o L X ↔ X = L.rowMap fun i y => a i * y + c i := by
  match o, h with
  | none, h =>
    rw [Snap.rowMap_eq_self (fun i _ y => by rw [(h i).1, (h i).2, one_mul, add_zero])]
    exact Iff.rfl
  | some (I, t), h =>
    simp only [TransformedTo]
    rw [TfI.Affine.transform h false L hL, yields]
    simp [eq_comm]

theorem actsOnRows_inverse {o : Option (TfI K T × T)} {n : Nat} {a c : Nat → K} (h : ActsOnRows o n a c) (b : Bool)
    {X : Snap K} (hX : X.len = n) (L : Snap K) : InvertedTo o b X L ↔ L = X.rowMap fun i y => (y - c i) / a i := by
  match o, h with
  | none, h =>
    rw [Snap.rowMap_eq_self (fun i _ y => by rw [(h i).1, (h i).2, sub_zero, div_one])]
    exact Iff.rfl
  | some (I, t), h =>
    simp only [InvertedTo]
    rw [TfI.Affine.inverse h b X hX, yields]
    simp [eq_comm]

theorem actsOnRows_nz {o : Option (TfI K T × T)} {n : Nat} {a c : Nat → K} (h : ActsOnRows o n a c) : ∀ i < n, a i ≠ 0 := by
  match o, h with
  | none, h => intro i _; rw [(h i).1]; exact one_ne_zero
  | some (I, t), h => exact TfI.Affine.nz h

/-- **C129** (shifting and scaling). Two reduced-order models without a basis whose transformers shift and scale the rows: the
encodings differ by a diagonal matrix and a shift, and related reduced states are decoded to the same. -/
theorem C129_scaled {T' B' : Type} (R : Rom K T B) (R' : Rom K T' B') (hl : R'.lifter = R.lifter) (hb : R.basis = none)
    (hb' : R'.basis = none) (n : Nat) (a c a' c' : Nat → K) (h : ActsOnRows R.transformer n a c)
    (h' : ActsOnRows R'.transformer n a' c') :
    Inverts n (diagRows n fun i => a' i / a i) (diagRows n fun i => (a' i / a i)⁻¹) ∧
      (∀ q, (∀ L, LiftedTo R.lifter q L → L.WF ∧ L.len = n) →
        EncodesAffinely n (diagRows n fun i => a' i / a i) (shiftList n fun i => c' i - a' i / a i * c i) R R' q) ∧
      (∀ q y, (∀ L, LiftedTo R.lifter q L → L.WF ∧ L.len = n) → R.encode1 q = .ok y → ∃ y', R'.encode1 q = .ok y') ∧
      DecodesAffinely n (diagRows n fun i => a' i / a i) (shiftList n fun i => c' i - a' i / a i * c i) R R' := by
  have nz := actsOnRows_nz h
  have nz' := actsOnRows_nz h'
  refine ⟨diagRows_inverts n _ fun i hi => div_ne_zero (nz' i hi) (nz i hi), ?_, ?_, ?_⟩
  · intro q hq y y' hy hy'
    rw [C47_encode] at hy hy'
    obtain ⟨L, X, l1, l2, l3⟩ := hy
    obtain ⟨L', X', l1', l2', l3'⟩ := hy'
    rw [hb] at l3
    rw [hb'] at l3'
    obtain rfl : y = X := l3
    obtain rfl : y' = X' := l3'
    have hLL : L' = L := by
      rw [hl] at l1'
      cases hR : R.lifter with
      | none => rw [hR] at l1 l1'; exact Eq.trans l1' l1.symm
      | some l =>
        rw [hR] at l1 l1'
        simp only [LiftedTo] at l1 l1'
        rw [l1] at l1'
        exact (Except.ok.inj l1').symm
    subst hLL
    obtain ⟨w1, w2⟩ := hq L' l1
    rw [actsOnRows_transform h w2] at l2
    rw [actsOnRows_transform h' w2] at l2'
    subst l2 l2'
    have := snapAffinely_rowMap (n := n) (fun i => a' i / a i) (fun i => c' i - a' i / a i * c i)
      (L'.rowMap fun i y => a i * y + c i) (w1.rowMap _) (by rw [Snap.len_rowMap, w2])
    rw [Snap.rowMap_rowMap] at this
    have e : (L'.rowMap fun i y => a' i / a i * (a i * y + c i) + (c' i - a' i / a i * c i)) =
        L'.rowMap fun i y => a' i * y + c' i := Snap.rowMap_congr fun i hi y => by
      have := nz i (by rw [← w2]; exact hi)
      field_simp
      ring
    rw [e] at this
    exact this
  · intro q y hq hy
    rw [C47_encode] at hy
    obtain ⟨L, X, l1, -, -⟩ := hy
    obtain ⟨w1, w2⟩ := hq L l1
    refine ⟨L.rowMap fun i y => a' i * y + c' i, (C47_encode _ _ _).2 ⟨L, _, by rw [hl]; exact l1, (actsOnRows_transform h' w2 _).2 rfl, ?_⟩⟩
    rw [hb']
    rfl
  · intro y y' p hy hp
    rw [C47_decode] at hp ⊢
    obtain ⟨X, L, l1, l2, l3⟩ := hp
    rw [hb] at l1 l2
    obtain rfl : X = y := l1
    obtain ⟨w1, w2⟩ := snapAffinely_shape hy
    have hyy := snapAffinely_unique hy (snapAffinely_rowMap _ _ X w1 w2)
    have hl' : y'.len = n := by rw [hyy, Snap.len_rowMap, w2]
    refine ⟨y', L, by rw [hb']; rfl, ?_, by rw [hl]; exact l3⟩
    rw [hb']
    rw [actsOnRows_inverse h _ w2] at l2
    refine (actsOnRows_inverse h' _ hl' _).2 ?_
    rw [l2, hyy, Snap.rowMap_rowMap]
    refine Snap.rowMap_congr fun i hi y => ?_
    have h1 := nz i (by rw [← w2]; exact hi)
    have h2 := nz' i (by rw [← w2]; exact hi)
    field_simp
    ring

/-- **C129** (shifting and scaling, predictions). Without a basis, the predictions do not depend on how the transformer shifts
and scales the states, whatever it was calibrated with: for fully discrete models with a constant operator which with each
class of operators contain those of lower degree, trained without regularization with the same trajectories, if these
determine the operators. -/
theorem C129_scaled_predict {T' B' : Type} [LinearOrder K] [IsStrictOrderedRing K] (lstsq : Mat K → Mat K → Except Err (Mat K))
    (hls : ∀ A B X, lstsq A B = .ok X → IsLstsq A B X) (F G : FRom K T B (Plain K)) (F' G' : FRom K T' B' (Plain K))
    (hF : F.rom.continuous = false) (hF' : F'.rom.continuous = false) (hM : F.model.Inv) (hM' : F'.model.Inv)
    (hint : F.model.intrusive = false) (hint' : F'.model.intrusive = false)
    (hsl : F'.model.slots.map (fun s => (s.op.kind, s.infer)) = F.model.slots.map fun s => (s.op.kind, s.infer))
    (hall : ∀ s ∈ F.model.slots, s.infer = true) (hk : Complete F.model.toInfer) (h1 : OpKind.const ∈ F.model.toInfer)
    (n m : Nat) (hn : 0 < n) (hl : F'.rom.lifter = F.rom.lifter) (hb : F.rom.basis = none) (hb' : F'.rom.basis = none)
    (a c a' c' : Nat → K) (ht : ActsOnRows F.rom.transformer n a c) (ht' : ActsOnRows F'.rom.transformer n a' c')
    (hasU : Bool) (xs : List (TrajArgs K)) (hxs : ∀ x ∈ xs, ∀ L, LiftedTo F.rom.lifter x.q L → L.WF ∧ L.len = n)
    (hu : hasU = true → ∀ x ∈ xs, x.u.WF ∧ (∀ k, (x.u.firstCols k).nrows = m) ∧
      ∀ e, F.rom.encode1 x.q = .ok e → e.ncolumns ≤ x.u.ncolumns + 1)
    (h : F.fitAll (plainSolver lstsq) false hasU false false xs = (G, .ok ()))
    (h' : F'.fitAll (plainSolver lstsq) false hasU false false xs = (G', .ok ()))
    (hdet : ∀ d, F.processAll false hasU false false xs = (F, .ok d) →
      Determines F.model.toInfer (F.model.toInfer.map fun o => o.dim n m).sum d.samples)
    (q0 : Snap K) (hq0 : ∀ L, LiftedTo F.rom.lifter q0 L → L.WF ∧ L.len = n) (N : Int)
    (inputs : PredInput K) (hin : ∀ a, inputs = .arr a → a.WF) (p : Snap K) (hp : G.predict q0 N inputs = .ok p) :
    G'.predict q0 N inputs = .ok p := by
  obtain ⟨c0, c1, c2, c3⟩ := C129_scaled F.rom F'.rom hl hb hb' n a c a' c' ht ht'
  refine C129_predict lstsq hls F G F' G' hF hF' hM hM' hint hint' hsl hall n m hn _ _ c0 _ (by simp [shiftList])
    (.inr ⟨hk, .inl h1⟩) hasU xs hu h h' hdet (fun x hx => c1 x.q (hxs x hx)) c3 q0 (c1 q0 hq0) ?_ N inputs hin p hp
  obtain ⟨R1, d, g1, g2, -, -⟩ := fitAll_training _ F G hM hint false hasU false false xs h
  obtain rfl := (process_keeps_rest F R1 _ _ _ _ xs d g1).2 ⟨rfl, rfl⟩
  rw [FRom.predict, C47_predict] at hp
  obtain ⟨z, zs, p1, -, -⟩ := hp
  rw [g2] at p1
  exact c2 q0 z hq0 p1

end

/-- **C129** (transformers that were fitted). A `ShiftScaleTransformer` that was calibrated acts on the rows in this way,
whatever its options and the calibration data. -/
theorem C129_shiftscale [Field K] [LinearOrder K] [IsStrictOrderedRing K] {sqrt : K → K} {s s' : Sst K} {Y Y' Z : Snap K}
    {b : Bool} (h : (sstI sqrt).fitTransform s b Y = (s', Y', .ok Z)) :
    ActsOnRows (some (sstI sqrt, s')) Y.len s'.factor s'.const := sst_affine sqrt (sst_fit_ready h).1

/-- A least-squares routine for the two problems of the example. -/
def minmaxLs (A B : Mat ℚ) : Except Err (Mat ℚ) :=
  if A = ⟨2, 2, [[1, 1], [1, 2]]⟩ ∧ B = ⟨2, 1, [[2], [4]]⟩ then .ok ⟨2, 1, [[0], [2]]⟩
  else if A = ⟨2, 2, [[1, 0], [1, 1 / 2]]⟩ ∧ B = ⟨2, 1, [[1 / 2], [3 / 2]]⟩ then .ok ⟨2, 1, [[1 / 2], [2]]⟩
  else .error .linalg

theorem minmaxLs_spec (A B X : Mat ℚ) (h : minmaxLs A B = .ok X) : IsLstsq A B X := by
  unfold minmaxLs at h
  split at h
  · rename_i hc
    obtain ⟨rfl, rfl⟩ := hc
    injection h with h
    subst h
    refine exact_lstsq (by decide) rfl rfl fun j hj => ?_
    match j, hj with
    | 0, _ => exact ⟨rfl, by decide +kernel⟩
  split at h
  · rename_i hc
    obtain ⟨rfl, rfl⟩ := hc
    injection h with h
    subst h
    refine exact_lstsq (by decide) rfl rfl fun j hj => ?_
    match j, hj with
    | 0, _ => exact ⟨rfl, by decide +kernel⟩
  · cases h

/-- A transformer with min-max scaling, calibrated with the states `1` and `3`: `q ↦ (q - 1) / 2`. -/
def minmaxT : Sst ℚ :=
  ((sstI fun x : ℚ => x).fitTransform ⟨false, some .minmax, false, none, false, none, none, none, none⟩ false
    (.mat 2 [[1, 3]])).1

theorem minmaxT_acts : ActsOnRows (some (sstI (fun x : ℚ => x), minmaxT)) 1 minmaxT.factor minmaxT.const :=
  C129_shiftscale (Y := .mat 2 [[1, 3]]) (Y' := .mat 2 [[1, 3]]) (Z := .mat 2 [[0, 1]]) (b := false)
    (s := ⟨false, some .minmax, false, none, false, none, none, none, none⟩)
    (Prod.ext rfl (Prod.ext (by decide +kernel) (by decide +kernel)))

/-- Models with a constant and a linear operator to be learned from the trajectory `1, 2, 4`, without and with scaling. -/
def rawRom : FRom ℚ Unit Unit (Plain ℚ) := ⟨⟨none, none, none, false⟩, none, cenModel [.const, .lin]⟩
def scaledRom : FRom ℚ (Sst ℚ) Unit (Plain ℚ) :=
  ⟨⟨none, some (sstI fun x => x, minmaxT), none, false⟩, none, cenModel [.const, .lin]⟩
def doubling : TrajArgs ℚ := ⟨.mat 3 [[1, 2, 4]], .vec [], .vec []⟩
def rawFit : FRom ℚ Unit Unit (Plain ℚ) := (rawRom.fitAll (plainSolver minmaxLs) false false false false [doubling]).1
def scaledFit : FRom ℚ (Sst ℚ) Unit (Plain ℚ) :=
  (scaledRom.fitAll (plainSolver minmaxLs) false false false false [doubling]).1

theorem raw_complete : Complete rawRom.model.toInfer := by
  have : rawRom.model.toInfer = [.const, .lin] := rfl
  rw [this]
  exact ⟨by simp, by simp, by simp, by simp, by simp⟩

-- all hypotheses of `C129_scaled_predict` hold for a model without and one with min-max scaling
example : scaledFit.predict (.vec [3]) 3 .none = .ok (.mat 3 [[3, 6, 12]]) := by
  refine C129_scaled_predict minmaxLs minmaxLs_spec rawRom rawFit scaledRom scaledFit rfl rfl
    (cenModel_inv _ (by simp) rfl) (cenModel_inv _ (by simp) rfl) rfl rfl rfl (by decide +kernel) raw_complete
    (by decide +kernel) 1 0 (by decide) rfl rfl rfl (fun _ => 1) (fun _ => 0) minmaxT.factor minmaxT.const
    (fun i => ⟨rfl, rfl⟩) minmaxT_acts false [doubling] ?_ (fun h => by cases h) (Prod.ext rfl (by decide +kernel))
    (Prod.ext rfl (by decide +kernel)) ?_ (.vec [3]) ?_ 3 .none (fun a h => by cases h) (.mat 3 [[3, 6, 12]])
    (by decide +kernel)
  · intro x hx L h1
    obtain rfl := mem_singleton.1 hx
    cases h1
    exact ⟨(show ∀ row ∈ [[(1 : ℚ), 2, 4]], row.length = 3 by decide +kernel), rfl⟩
  · intro d hd v hv h
    have e : (rawRom.processAll false false false false [doubling]).2 =
        .ok ⟨[.mat 2 [[1, 2]]], [.mat 2 [[2, 4]]], none⟩ := by decide +kernel
    rw [hd] at e
    cases e
    obtain ⟨a, b, rfl⟩ : ∃ a b, v = [a, b] := by
      match v, hv with
      | [a, b], _ => exact ⟨a, b, rfl⟩
    have h0 := h ⟨[1], [2], none⟩ (by
      simp [TrainData.samples, inputList, trajSamples, inputColumns, Snap.columnList, Snap.toArg, atleast2d, transpose,
        Snap.ncolumns, range_succ])
    have h1 := h ⟨[2], [4], none⟩ (by
      simp [TrainData.samples, inputList, trajSamples, inputColumns, Snap.columnList, Snap.toArg, atleast2d, transpose,
        Snap.ncolumns, range_succ])
    simp [rawRom, cenModel, Model.toInfer, dataVector, OpKind.dataCol, dot] at h0 h1
    have hb : b = 0 := by linarith
    have ha : a = 0 := by linarith
    simp [ha, hb]
  · intro L h1
    cases h1
    exact ⟨trivial, rfl⟩

end Opinf
