import Verif.Lemmas.DdtRows
import Verif.Props.TransformInv
import Verif.Props.BasisMulti
import Verif.Props.RomFit
import Verif.Model.VerifyBasis

/-!
# C112: time derivatives may be estimated before or after preprocessing and compressing the states
-/

namespace Opinf

open List

variable {K T B S : Type}

/-! ### Specification -/

/-- Row operations of a derivative estimator commute with `transform` (for the states) and `transform_ddts` (for the
derivatives) of a transformer of states with `n` entries. -/
def TfI.Commutes [Field K] (I : TfI K S) (s : S) (n : Nat) : Prop :=
  ∀ (k w : Nat) (keep diff : List K → List K), RowRule k w keep diff → ∀ rows : List (List K), rows.length = n →
    (∀ row ∈ rows, row.length = k) → ∃ rows' : List (List K), rows'.length = n ∧ (∀ row ∈ rows', row.length = k) ∧
      (∀ b, I.transform s b (.mat k rows) = yields b (.mat k rows) (.mat k rows')) ∧
      (∀ b, I.transform s b (.mat w (rows.map keep)) =
        yields b (.mat w (rows.map keep)) (.mat w (rows'.map keep))) ∧
      ∀ b, I.ddts s b (.mat w (rows.map diff)) = yields b (.mat w (rows.map diff)) (.mat w (rows'.map diff))

/-- ... and with `compress` of a basis with `r` elements. -/
def BasI.Commutes [Field K] (I : BasI K S) (s : S) (n r : Nat) : Prop :=
  ∀ (k w : Nat) (keep diff : List K → List K), RowRule k w keep diff → ∀ rows : List (List K), rows.length = n →
    (∀ row ∈ rows, row.length = k) → ∃ rows' : List (List K), rows'.length = r ∧ (∀ row ∈ rows', row.length = k) ∧
      I.compress s (.mat k rows) = .ok (.mat k rows') ∧
      I.compress s (.mat w (rows.map keep)) = .ok (.mat w (rows'.map keep)) ∧
      I.compress s (.mat w (rows.map diff)) = .ok (.mat w (rows'.map diff))

/-! ### Transformers -/

section
variable [Field K]

theorem map_affine (a c : K) (x : List K) {k : Nat} (hx : x.length = k) :
    x.map (fun y => a * y + c) = vadd (replicate k c) (vsmul a x) := by
  subst hx
  induction x with
  | nil => rfl
  | cons y x ih =>
    simp only [vadd, vsmul, map_cons, length_cons, replicate_succ, zipWith_cons_cons] at ih ⊢
    rw [ih, add_comm]

/-- C112 for transformers that act on each row as an affine function: shifts, scalings, both, and none. -/
theorem C112_affine {I : TfI K S} {s : S} {n : Nat} {a c : Nat → K} (h : I.Affine s n a c) : I.Commutes s n := by
  intro k w keep diff hR rows hl hr
  refine ⟨rows.mapIdx fun i row => row.map fun y => a i * y + c i, by simp [hl], ?_, fun b => ?_, fun b => ?_, fun b => ?_⟩
  · intro row hrow
    obtain ⟨i, hi, rfl⟩ := mem_mapIdx.1 hrow
    simp [hr _ (getElem_mem hi)]
  · exact h.transform b _ hl
  · rw [h.transform b _ (by simp [Snap.len, hl])]
    congr 1
    simp only [Snap.rowMap, Snap.mat.injEq, true_and]
    apply ext_getElem (by simp)
    intro i h1 h2
    have hi : i < rows.length := by simpa using h1
    have hk : rows[i].length = k := hr _ (getElem_mem _)
    simp only [getElem_mapIdx, getElem_map]
    rw [map_affine _ _ _ hk, hR.keep_lin _ _ _ (by simp) hk, hR.keep_const, map_affine _ _ _ (hR.keep_length _ hk)]
  · rw [h.ddts b _ (by simp [Snap.len, hl])]
    congr 1
    simp only [Snap.rowMap, Snap.mat.injEq, true_and]
    apply ext_getElem (by simp)
    intro i h1 h2
    have hi : i < rows.length := by simpa using h1
    have hk : rows[i].length = k := hr _ (getElem_mem _)
    simp only [getElem_mapIdx, getElem_map]
    have h0 := map_affine (a i) 0 (diff rows[i]) (hR.diff_length _ hk)
    simp only [add_zero] at h0
    rw [map_affine _ _ _ hk, hR.diff_lin _ _ _ (by simp) hk, hR.diff_const, h0]

/-- C112 for pipelines. -/
theorem C112_pipeline {I : TfI K S} {n : Nat} {ts : List S} (hne : ts ≠ []) (h : ∀ t ∈ ts, I.Commutes t n) :
    (pipeI I).Commutes ts n := by
  have he : ts.isEmpty = false := by simpa using hne
  intro k w keep diff hR rows hl hr
  simp only [pipeI, he, Bool.false_eq_true, if_false]
  clear he hne
  induction ts generalizing rows with
  | nil => exact ⟨rows, hl, hr, fun b => by cases b <;> rfl, fun b => by cases b <;> rfl, fun b => by cases b <;> rfl⟩
  | cons t ts ih =>
    obtain ⟨r1, g1, g2, e1, e2, e3⟩ := h t (by simp) k w keep diff hR rows hl hr
    obtain ⟨r2, g3, g4, f1, f2, f3⟩ := ih (fun t ht => h t (by simp [ht])) r1 g1 g2
    exact ⟨r2, g3, g4, fun b => chain_cons (e1 b) (f1 true), fun b => chain_cons (e2 b) (f2 true),
      fun b => chain_cons (e3 b) (f3 true)⟩

theorem joined_mat {k : Nat} {ns : List Nat} {ps : List (List (List K))} (hn : ns ≠ []) (hl : ps.map length = ns)
    (hr : ∀ p ∈ ps, ∀ row ∈ p, row.length = k) : Joined (some k) ns (ps.map (.mat k)) (.mat k ps.flatten) := by
  have hs : ps.flatten.length = ns.sum := by rw [length_flatten, hl]
  have h := joined_split (Y := Snap.mat k ps.flatten) (c := some k) (ns := ns) ⟨?_, hs, rfl⟩ hn
  · rw [splitSizes_mat, drop_zero, ← hl, cutAt_of_flatten, hl] at h
    exact h
  · intro row hrow
    obtain ⟨p, hp, hrow⟩ := mem_flatten.1 hrow
    exact hr p hp row hrow

theorem map_rows_length (f : List K → List K) (ps : List (List (List K))) :
    (ps.map (map f)).map length = ps.map length := by
  simp [Function.comp_def]

theorem joined_mapped {k w : Nat} {ns : List Nat} {ps : List (List (List K))} (hn : ns ≠ []) (hl : ps.map length = ns)
    (hr : ∀ p ∈ ps, ∀ row ∈ p, row.length = k) (f : List K → List K) (hf : ∀ x, x.length = k → (f x).length = w) :
    Joined (some w) ns (ps.map fun p => .mat w (p.map f)) (.mat w (ps.flatten.map f)) := by
  have := joined_mat (k := w) hn ((map_rows_length f ps).trans hl) (by
    intro p hp row hrow
    obtain ⟨q, hq, rfl⟩ := mem_map.1 hp
    obtain ⟨x, hx, rfl⟩ := mem_map.1 hrow
    exact hf x (hr q hq x hx))
  rw [map_map, ← map_flatten] at this
  exact this

/-- C112 for multi-variable transformers. -/
theorem C112_multi {I : TfI K S} {ts : List S} {ns : List Nat} (hne : ts ≠ [])
    (hd : Forall₂ (fun t n => I.dim t = some n) ts ns) (h : Forall₂ I.Commutes ts ns) :
    (multiI I).Commutes ts ns.sum := by
  intro k w keep diff hR rows hl hr
  have hn : ns ≠ [] := forall2_ne_nil h hne
  have key : ∀ {ts : List S} {ns : List Nat} {ps : List (List (List K))}, Forall₂ I.Commutes ts ns →
      ps.map length = ns → (∀ p ∈ ps, ∀ row ∈ p, row.length = k) →
      ∃ qs : List (List (List K)), qs.map length = ns ∧ (∀ p ∈ qs, ∀ row ∈ p, row.length = k) ∧ ∀ b,
        Each3 (fun t P Q => I.transform t b P = yields b P Q) ts (ps.map (.mat k)) (qs.map (.mat k)) ∧
        Each3 (fun t P Q => I.transform t b P = yields b P Q) ts (ps.map fun p => .mat w (p.map keep))
          (qs.map fun p => .mat w (p.map keep)) ∧
        Each3 (fun t P Q => I.ddts t b P = yields b P Q) ts (ps.map fun p => .mat w (p.map diff))
          (qs.map fun p => .mat w (p.map diff)) := by
    intro ts ns ps h1
    induction h1 generalizing ps with
    | nil =>
      intro hp _
      rw [map_eq_nil_iff] at hp
      subst hp
      exact ⟨[], rfl, by simp, fun b => ⟨.nil, .nil, .nil⟩⟩
    | cons ht _ ih =>
      intro hp hr
      cases ps with
      | nil => simp at hp
      | cons p ps =>
        simp only [map_cons, cons.injEq] at hp
        obtain ⟨q, g1, g2, e1, e2, e3⟩ := ht k w keep diff hR p hp.1 (hr p (by simp))
        obtain ⟨qs, g3, g4, f⟩ := ih hp.2 fun p hp => hr p (by simp [hp])
        refine ⟨q :: qs, by simp [g1, g3], ?_, fun b => ⟨.cons (e1 b) (f b).1, .cons (e2 b) (f b).2.1,
          .cons (e3 b) (f b).2.2⟩⟩
        intro p hp
        rcases mem_cons.1 hp with rfl | hp
        · exact g2
        · exact g4 p hp
  have hps := cutAt_length ns rows hl
  have hpr : ∀ p ∈ cutAt ns rows, ∀ row ∈ p, row.length = k := fun p hp row hrow => hr row (cutAt_mem hp row hrow)
  obtain ⟨qs, g1, g2, f⟩ := key h hps hpr
  have hfl := cutAt_flatten ns rows hl
  have j0 := joined_mat hn hps hpr
  have j1 := joined_mapped hn hps hpr keep hR.keep_length
  have j2 := joined_mapped hn hps hpr diff hR.diff_length
  rw [hfl] at j0 j1 j2
  refine ⟨qs.flatten, by rw [length_flatten, g1], ?_, fun b => multiTransform_eq hd j0 (joined_mat hn g1 g2) (f b).1,
    fun b => multiTransform_eq hd j1 (joined_mapped hn g1 g2 keep hR.keep_length) (f b).2.1,
    fun b => multiDdts_eq hd j2 (joined_mapped hn g1 g2 diff hR.diff_length) (f b).2.2⟩
  intro row hrow
  obtain ⟨p, hp, hrow⟩ := mem_flatten.1 hrow
  exact g2 p hp row hrow

/-! ### Bases -/

theorem linear_vecMat {k w : Nat} {f : List K → List K} (hlin : ∀ x y h, x.length = k → y.length = k →
      f (vadd x (vsmul h y)) = vadd (f x) (vsmul h (f y))) (h0 : f (replicate k 0) = replicate w 0)
    (l : List K) (rows : List (List K)) (hr : ∀ row ∈ rows, row.length = k) :
    f (vecMat k l rows) = vecMat w l (rows.map f) ∧ (vecMat k l rows).length = k := by
  have key : ∀ (l : List K) (rows : List (List K)) (acc : List K), (∀ row ∈ rows, row.length = k) → acc.length = k →
      f ((zipWith vsmul l rows).foldl vadd acc) = (zipWith vsmul l (rows.map f)).foldl vadd (f acc) ∧
      ((zipWith vsmul l rows).foldl vadd acc).length = k := by
    intro l
    induction l with
    | nil => intro rows acc _ ha; exact ⟨rfl, ha⟩
    | cons a l ih =>
      intro rows acc hr ha
      cases rows with
      | nil => exact ⟨rfl, ha⟩
      | cons row rows =>
        have hk := hr row (by simp)
        simp only [zipWith_cons_cons, map_cons, foldl_cons]
        rw [← hlin _ _ _ ha hk]
        exact ih rows _ (fun r hr' => hr r (by simp [hr'])) (by simp [vadd, vsmul, ha, hk])
  have := key l rows (replicate k 0) hr (by simp)
  simp only [vecMat]
  rw [← h0]
  exact this

/-- The action of the weights of an inner product on states with `n` entries. -/
def Weights.Fit (n : Nat) : Option (Weights K) → Prop
  | none => True
  | some (.diag w) => w.length = n
  | some (.full A) => A.ncols = n ∧ A.rows.length = n

/-- Matrices. -/
theorem matSnap_commutes (A : List (List K)) (n k w : Nat) (keep diff : List K → List K) (hR : RowRule k w keep diff)
    (rows : List (List K)) (hl : rows.length = n) (hr : ∀ row ∈ rows, row.length = k) :
    (∀ row ∈ matMul k A rows, row.length = k) ∧ matSnap A n (.mat k rows) = .ok (.mat k (matMul k A rows)) ∧
      matSnap A n (.mat w (rows.map keep)) = .ok (.mat w ((matMul k A rows).map keep)) ∧
      matSnap A n (.mat w (rows.map diff)) = .ok (.mat w ((matMul k A rows).map diff)) := by
  have e1 := fun l => linear_vecMat hR.keep_lin (hR.keep_const 0) l rows hr
  have e2 := fun l => linear_vecMat hR.diff_lin (hR.diff_const 0) l rows hr
  refine ⟨?_, ?_, ?_, ?_⟩
  · intro row hrow
    obtain ⟨l, -, rfl⟩ := mem_map.1 hrow
    exact (e1 l).2
  · simp [matSnap, Snap.len, hl]
  · simp only [matSnap, Snap.len, length_map, hl, ne_eq, not_true_eq_false, if_false, matMul, map_map]
    congr 2
    exact map_congr_left fun l _ => (e1 l).1.symm
  · simp only [matSnap, Snap.len, length_map, hl, ne_eq, not_true_eq_false, if_false, matMul, map_map]
    congr 2
    exact map_congr_left fun l _ => (e2 l).1.symm

theorem weights_commute (W : Option (Weights K)) (n k w : Nat) (hW : Weights.Fit n W) (keep diff : List K → List K)
    (hR : RowRule k w keep diff) (rows : List (List K)) (hl : rows.length = n) (hr : ∀ row ∈ rows, row.length = k) :
    ∃ rows' : List (List K), rows'.length = n ∧ (∀ row ∈ rows', row.length = k) ∧
      applyWeights W (.mat k rows) = .ok (.mat k rows') ∧
      applyWeights W (.mat w (rows.map keep)) = .ok (.mat w (rows'.map keep)) ∧
      applyWeights W (.mat w (rows.map diff)) = .ok (.mat w (rows'.map diff)) := by
  match W, hW with
  | none, _ => exact ⟨rows, hl, hr, rfl, rfl, rfl⟩
  | some (.diag v), hv =>
    have hv : v.length = n := hv
    have lin : ∀ (f : List K → List K), (∀ x y h, x.length = k → y.length = k →
        f (vadd x (vsmul h y)) = vadd (f x) (vsmul h (f y))) → f (replicate k 0) = replicate w 0 →
        (∀ x, x.length = k → (f x).length = w) → ∀ (a : K) (x : List K), x.length = k →
        f (x.map fun y => a * y) = (f x).map fun y => a * y := by
      intro f h1 h2 h3 a x hx
      have e1 := map_affine a 0 x hx
      have e2 := map_affine a 0 (f x) (h3 x hx)
      simp only [add_zero] at e1 e2
      rw [e1, h1 _ _ _ (by simp) hx, h2, e2]
    have key : ∀ (f : List K → List K), (∀ (a : K) (x : List K), x.length = k →
        f (x.map fun y => a * y) = (f x).map fun y => a * y) →
        (rows.map f).mapIdx (fun i row => row.map fun y => v.getD i 0 * y) =
          (rows.mapIdx fun i row => row.map fun y => v.getD i 0 * y).map f := by
      intro f hf
      apply ext_getElem (by simp)
      intro i h1 h2
      simp only [getElem_mapIdx, getElem_map]
      rw [hf _ _ (hr _ (getElem_mem _))]
    refine ⟨rows.mapIdx fun i row => row.map fun y => v.getD i 0 * y, by simp [hl], ?_, ?_, ?_, ?_⟩
    · intro row hrow
      obtain ⟨i, hi, rfl⟩ := mem_mapIdx.1 hrow
      simp [hr _ (getElem_mem hi)]
    · simp only [applyWeights, Snap.len, hl, hv, if_true, Snap.rowMap]
    · simp only [applyWeights, Snap.len, length_map, hl, hv, if_true, Snap.rowMap]
      rw [key keep (lin keep hR.keep_lin (hR.keep_const 0) hR.keep_length)]
    · simp only [applyWeights, Snap.len, length_map, hl, hv, if_true, Snap.rowMap]
      rw [key diff (lin diff hR.diff_lin (hR.diff_const 0) hR.diff_length)]
  | some (.full A), hA =>
    obtain ⟨h1, h2, h3, h4⟩ := matSnap_commutes A.rows n k w keep diff hR rows hl hr
    refine ⟨matMul k A.rows rows, by simp [matMul, hA.2], h1, ?_, ?_, ?_⟩
    · simp only [applyWeights, hA.1, h2]
    · simp only [applyWeights, hA.1, h3]
    · simp only [applyWeights, hA.1, h4]

theorem lin_commutes (b : LinB K) (V : Cols K) (hV : b.entries = some V) (hW : Weights.Fit V.n b.weights)
    (k w : Nat) (keep diff : List K → List K) (hR : RowRule k w keep diff) (rows : List (List K))
    (hl : rows.length = V.n) (hr : ∀ row ∈ rows, row.length = k) :
    ∃ rows' : List (List K), rows'.length = V.cols.length ∧ (∀ row ∈ rows', row.length = k) ∧
      b.compress (.mat k rows) = .ok (.mat k rows') ∧
      b.compress (.mat w (rows.map keep)) = .ok (.mat w (rows'.map keep)) ∧
      b.compress (.mat w (rows.map diff)) = .ok (.mat w (rows'.map diff)) := by
  obtain ⟨r1, g1, g2, e1, e2, e3⟩ := weights_commute b.weights V.n k w hW keep diff hR rows hl hr
  obtain ⟨g3, f1, f2, f3⟩ := matSnap_commutes V.cols V.n k w keep diff hR r1 g1 g2
  refine ⟨matMul k V.cols r1, by simp [matMul], g3, ?_, ?_, ?_⟩
  · simp only [LinB.compress, LinB.need, hV, bind, Except.bind, e1, f1]
  · simp only [LinB.compress, LinB.need, hV, bind, Except.bind, e2, f2]
  · simp only [LinB.compress, LinB.need, hV, bind, Except.bind, e3, f3]

/-- C112 for linear bases, with or without weights. -/
theorem C112_linear_basis (b : LinB K) (V : Cols K) (hV : b.entries = some V) (hW : Weights.Fit V.n b.weights) :
    linI.Commutes b V.n V.cols.length := fun k w keep diff hR rows hl hr =>
  lin_commutes b V hV hW k w keep diff hR rows hl hr

/-- C112 for multi-variable bases. -/
theorem C112_multi_basis {I : BasI K S} {bs : List S} {ns rs : List Nat} (hD : BasisDims I bs ns rs)
    (h : Forall₂ (fun b (x : Nat × Nat) => I.Commutes b x.1 x.2) bs (zip ns rs)) :
    (multiBasI I).Commutes bs ns.sum rs.sum := by
  intro k w keep diff hR rows hl hr
  have key : ∀ {bs : List S} {ns rs : List Nat} {ps : List (List (List K))},
      Forall₂ (fun b (x : Nat × Nat) => I.Commutes b x.1 x.2) bs (zip ns rs) → ns.length = rs.length →
      ps.map length = ns → (∀ p ∈ ps, ∀ row ∈ p, row.length = k) →
      ∃ qs : List (List (List K)), qs.map length = rs ∧ (∀ p ∈ qs, ∀ row ∈ p, row.length = k) ∧
        Each3 (fun b P Q => I.compress b P = .ok Q) bs (ps.map (.mat k)) (qs.map (.mat k)) ∧
        Each3 (fun b P Q => I.compress b P = .ok Q) bs (ps.map fun p => .mat w (p.map keep))
          (qs.map fun p => .mat w (p.map keep)) ∧
        Each3 (fun b P Q => I.compress b P = .ok Q) bs (ps.map fun p => .mat w (p.map diff))
          (qs.map fun p => .mat w (p.map diff)) := by
    intro bs
    induction bs with
    | nil =>
      intro ns rs ps h1 hnr hp _
      cases ns with
      | cons _ _ => cases rs with
        | nil => simp at hnr
        | cons _ _ => cases h1
      | nil =>
        cases rs with
        | cons _ _ => simp at hnr
        | nil =>
          rw [map_eq_nil_iff] at hp
          subst hp
          exact ⟨[], rfl, by simp, .nil, .nil, .nil⟩
    | cons b bs ih =>
      intro ns rs ps h1 hnr hp hr
      cases ps with
      | nil => subst hp; cases h1
      | cons p ps => cases rs with
        | nil => subst hp; simp at hnr
        | cons r rs =>
          subst hp
          simp only [map_cons, zip_cons_cons] at h1
          cases h1 with
          | cons ht h1 =>
            obtain ⟨q, g1, g2, e1, e2, e3⟩ := ht k w keep diff hR p rfl (hr p (by simp))
            obtain ⟨qs, g3, g4, f1, f2, f3⟩ := ih h1 (by simpa using hnr) rfl fun p hp => hr p (by simp [hp])
            refine ⟨q :: qs, by simp [g1, g3], ?_, .cons e1 f1, .cons e2 f2, .cons e3 f3⟩
            intro p hp
            rcases mem_cons.1 hp with rfl | hp
            · exact g2
            · exact g4 p hp
  have hps := cutAt_length ns rows hl
  have hpr : ∀ p ∈ cutAt ns rows, ∀ row ∈ p, row.length = k := fun p hp row hrow => hr row (cutAt_mem hp row hrow)
  obtain ⟨qs, g1, g2, f1, f2, f3⟩ := key h (hD.full.length_eq.symm.trans hD.reduced.length_eq) hps hpr
  have hfl := cutAt_flatten ns rows hl
  have hn := hD.ne.1
  have hm := hD.ne.2
  have j0 := joined_mat hn hps hpr
  have j1 := joined_mapped hn hps hpr keep hR.keep_length
  have j2 := joined_mapped hn hps hpr diff hR.diff_length
  rw [hfl] at j0 j1 j2
  refine ⟨qs.flatten, by rw [length_flatten, g1], ?_, C46_compress hD j0 (joined_mat hm g1 g2) f1,
    C46_compress hD j1 (joined_mapped hm g1 g2 keep hR.keep_length) f2,
    C46_compress hD j2 (joined_mapped hm g1 g2 diff hR.diff_length) f3⟩
  intro row hrow
  obtain ⟨p, hp, hrow⟩ := mem_flatten.1 hrow
  exact g2 p hp row hrow

/-! ### Reduced-order models -/

/-- The transformer and the basis of a reduced-order model commute with row operations; states with `n` entries are
reduced to `r` entries. -/
structure Rom.Commutes (R : Rom K T B) (n r : Nat) : Prop where
  transformer : ∀ x ∈ R.transformer, x.1.Commutes x.2 n
  basis : ∀ x ∈ R.basis, x.1.Commutes x.2 n r
  plain : R.basis = none → r = n

/-- Preprocessing of the states of one trajectory. -/
def Rom.pre (R : Rom K T B) (Q : Snap K) : Except Err (Snap K) :=
  match R.transformer with
  | none => .ok Q
  | some (I, t) => (I.transform t false Q).2

/-- ... of their derivatives. -/
def Rom.preDdts (R : Rom K T B) (Z : Snap K) : Except Err (Snap K) :=
  match R.transformer with
  | none => .ok Z
  | some (I, t) => (I.ddts t false Z).2

/-- Compression of states or derivatives. -/
def Rom.comp (R : Rom K T B) (Q : Snap K) : Except Err (Snap K) :=
  match R.basis with
  | none => .ok Q
  | some (I, b) => I.compress b Q

/-- `X` is the reduced version of the states `Q`. -/
def Rom.Reduces (R : Rom K T B) (Q X : Snap K) : Prop := ∃ M, R.pre Q = .ok M ∧ R.comp M = .ok X

/-- ... of the derivatives `Q`. -/
def Rom.ReducesDdts (R : Rom K T B) (Q X : Snap K) : Prop := ∃ M, R.preDdts Q = .ok M ∧ R.comp M = .ok X

theorem Rom.Commutes.rows {R : Rom K T B} {n r : Nat} (h : R.Commutes n r) {k w : Nat} {keep diff : List K → List K}
    (hR : RowRule k w keep diff) {rows : List (List K)} (hl : rows.length = n) (hr : ∀ row ∈ rows, row.length = k) :
    ∃ rows' : List (List K), rows'.length = r ∧ (∀ row ∈ rows', row.length = k) ∧
      R.Reduces (.mat k rows) (.mat k rows') ∧ R.Reduces (.mat w (rows.map keep)) (.mat w (rows'.map keep)) ∧
      R.ReducesDdts (.mat w (rows.map diff)) (.mat w (rows'.map diff)) := by
  obtain ⟨r1, g1, g2, e1, e2, e3⟩ : ∃ r1 : List (List K), r1.length = n ∧ (∀ row ∈ r1, row.length = k) ∧
      R.pre (.mat k rows) = .ok (.mat k r1) ∧ R.pre (.mat w (rows.map keep)) = .ok (.mat w (r1.map keep)) ∧
      R.preDdts (.mat w (rows.map diff)) = .ok (.mat w (r1.map diff)) := by
    unfold Rom.pre Rom.preDdts
    have := h.transformer
    cases ht : R.transformer with
    | none => exact ⟨rows, hl, hr, rfl, rfl, rfl⟩
    | some x =>
      obtain ⟨I, t⟩ := x
      obtain ⟨r1, g1, g2, e1, e2, e3⟩ := this _ ht k w keep diff hR rows hl hr
      exact ⟨r1, g1, g2, congrArg Prod.snd (e1 false), congrArg Prod.snd (e2 false), congrArg Prod.snd (e3 false)⟩
  obtain ⟨r2, g3, g4, f1, f2, f3⟩ : ∃ r2 : List (List K), r2.length = r ∧ (∀ row ∈ r2, row.length = k) ∧
      R.comp (.mat k r1) = .ok (.mat k r2) ∧ R.comp (.mat w (r1.map keep)) = .ok (.mat w (r2.map keep)) ∧
      R.comp (.mat w (r1.map diff)) = .ok (.mat w (r2.map diff)) := by
    unfold Rom.comp
    have := h.basis
    cases hb : R.basis with
    | none => exact ⟨r1, by rw [g1, h.plain hb], g2, rfl, rfl, rfl⟩
    | some x =>
      obtain ⟨I, b⟩ := x
      exact this _ hb k w keep diff hR r1 g1 g2
  exact ⟨r2, g3, g4, ⟨_, e1, f1⟩, ⟨_, e2, f2⟩, ⟨_, e3, f3⟩⟩

/-- A trajectory of states with `n` entries. -/
def IsTraj (n : Nat) (Q : Snap K) : Prop := ∃ k, Q.Shaped n (some k)

theorem IsTraj.rows {n : Nat} {Q : Snap K} (h : IsTraj n Q) :
    ∃ k rows, Q = .mat k rows ∧ rows.length = n ∧ ∀ row ∈ rows, row.length = k := by
  obtain ⟨k, h⟩ := h
  cases Q with
  | vec xs => have := h.cols; cases this
  | mat k' rows =>
    have := h.cols
    cases this
    exact ⟨k, rows, rfl, h.len, h.wf⟩

theorem emptyRule (k : Nat) : RowRule k 0 (fun _ : List K => []) fun _ => [] :=
  ⟨fun _ _ => rfl, fun _ _ => rfl, fun _ _ _ _ _ => rfl, fun _ _ _ _ _ => rfl, fun _ => rfl, fun _ => rfl⟩

/-- One trajectory. -/
theorem reduce_one {ν : Type} {est : Snap K → Except Err (Snap K × Snap K × ν)} (hE : RowWise est) {R : Rom K T B}
    {n r : Nat} (h : R.Commutes n r) (hn : 0 < n) {Q : Snap K} (hQ : IsTraj n Q) :
    ∃ X, IsTraj r X ∧ R.Reduces Q X ∧ (∀ Y Z v, est Q = .ok (Y, Z, v) →
        ∃ Y' Z', R.Reduces Y Y' ∧ R.ReducesDdts Z Z' ∧ est X = .ok (Y', Z', v)) ∧
      (0 < r → (∃ x, est X = .ok x) → ∃ x, est Q = .ok x) := by
  obtain ⟨k, rows, rfl, hl, hr⟩ := hQ.rows
  obtain ⟨rows', g1, g2, e1, -, -⟩ := h.rows (emptyRule k) hl hr
  refine ⟨.mat k rows', ⟨k, g2, g1, rfl⟩, e1, ?_, ?_⟩
  · intro Y Z v hq
    have hne : rows ≠ [] := by rintro rfl; simp at hl; omega
    obtain ⟨w, keep, diff, hR, hall⟩ := hE k rows _ hne hr hq
    obtain ⟨rows2, g3, g4, f1, f2, f3⟩ := h.rows hR hl hr
    have hsame : rows2 = rows' := by
      obtain ⟨M, a1, a2⟩ := e1
      obtain ⟨M', b1, b2⟩ := f1
      rw [a1] at b1
      cases b1
      rw [a2] at b2
      cases b2
      rfl
    subst hsame
    have hq' := hall rows hr
    rw [hq] at hq'
    cases hq'
    exact ⟨_, _, f2, f3, hall rows2 g4⟩
  · rintro hr0 ⟨x, hx⟩
    have hne : rows' ≠ [] := by rintro rfl; simp at g1; omega
    obtain ⟨w, keep, diff, hR, hall⟩ := hE k rows' _ hne g2 hx
    exact ⟨_, hall rows hr⟩

theorem mapM_split {α β γ : Type} {f : α → Except Err β} {g : β → Except Err γ} {l : List α} {m : List γ}
    (h : Forall₂ (fun a c => ∃ b, f a = .ok b ∧ g b = .ok c) l m) :
    ∃ b, l.mapM f = .ok b ∧ b.mapM g = .ok m := by
  obtain ⟨b, h1, h2⟩ := forall₂_comp_iff.1 h
  exact ⟨b, mapM_ok_forall2.2 h1, mapM_ok_forall2.2 h2⟩

theorem reduceTrain_states {R : Rom K T B} (hL : R.lifter = none) {states X : List (Snap K)}
    (h : Forall₂ R.Reduces states X) : R.reduceTrain false false states none = (R, .ok (X, none)) := by
  obtain ⟨M, h1, h2⟩ := mapM_split h
  obtain ⟨l, t, b, c⟩ := R
  simp only at hL
  subst hL
  have e1 : Rom.tfTrain ⟨none, t, b, c⟩ false states none = (⟨none, t, b, c⟩, .ok (M, none)) := by
    cases t with
    | none =>
      have := mapM_ok_forall2.1 h1
      simp only [Rom.pre] at this
      have hM : states = M := by
        rw [← forall₂_eq_eq_eq]
        exact this.imp fun _ _ h => Except.ok.inj h
      subst hM
      rfl
    | some x =>
      obtain ⟨I, t⟩ := x
      change states.mapM (fun Q => (I.transform t false Q).2) = .ok M at h1
      simp only [Rom.tfTrain, fitStacked, Bool.false_eq_true, if_false, onBoth, h1]
  have e2 : Rom.basisTrain ⟨none, t, b, c⟩ false M none = (⟨none, t, b, c⟩, .ok (X, none)) := by
    cases b with
    | none =>
      have := mapM_ok_forall2.1 h2
      simp only [Rom.comp] at this
      have hM : M = X := by
        rw [← forall₂_eq_eq_eq]
        exact this.imp fun _ _ h => Except.ok.inj h
      subst hM
      rfl
    | some x =>
      obtain ⟨I, b⟩ := x
      change M.mapM (fun Q => I.compress b Q) = .ok X at h2
      simp only [Rom.basisTrain, fitStacked, Bool.false_eq_true, if_false, onBoth, h2]
  simp only [Rom.reduceTrain, Rom.liftTrain, e1, e2]

theorem reduceTrain_both {R : Rom K T B} (hL : R.lifter = none) (hc : R.continuous = true)
    {states X lhs Z : List (Snap K)} (h : Forall₂ R.Reduces states X) (h' : Forall₂ R.ReducesDdts lhs Z) :
    R.reduceTrain false false states (some lhs) = (R, .ok (X, some Z)) := by
  obtain ⟨M, h1, h2⟩ := mapM_split h
  obtain ⟨N, h3, h4⟩ := mapM_split h'
  obtain ⟨l, t, b, c⟩ := R
  simp only at hL hc
  subst hL hc
  have triv : ∀ {a b : List (Snap K)}, a.mapM (fun Q => (Except.ok Q : Except Err (Snap K))) = .ok b → a = b := by
    intro a b hab
    rw [← forall₂_eq_eq_eq]
    exact (mapM_ok_forall2.1 hab).imp fun _ _ h => Except.ok.inj h
  have e1 : Rom.tfTrain ⟨none, t, b, true⟩ false states (some lhs) = (⟨none, t, b, true⟩, .ok (M, some N)) := by
    cases t with
    | none =>
      rw [triv h1, triv h3]
      rfl
    | some x =>
      obtain ⟨I, t⟩ := x
      change states.mapM (fun Q => (I.transform t false Q).2) = .ok M at h1
      change lhs.mapM (fun Q => (I.ddts t false Q).2) = .ok N at h3
      simp only [Rom.tfTrain, fitStacked, Bool.false_eq_true, if_false, onBoth, h1, tfLhs, if_true, h3, Except.map]
  have e2 : Rom.basisTrain ⟨none, t, b, true⟩ false M (some N) = (⟨none, t, b, true⟩, .ok (X, some Z)) := by
    cases b with
    | none =>
      rw [triv h2, triv h4]
      rfl
    | some x =>
      obtain ⟨I, b⟩ := x
      change M.mapM (fun Q => I.compress b Q) = .ok X at h2
      change N.mapM (fun Q => I.compress b Q) = .ok Z at h4
      simp only [Rom.basisTrain, fitStacked, Bool.false_eq_true, if_false, onBoth, h2, h4, Except.map]
  simp only [Rom.reduceTrain, Rom.liftTrain, e1, e2]

/-- An estimate of the original and of the reduced data of one trajectory. -/
def Rom.Matches {ν : Type} (R : Rom K T B) (x y : Snap K × Snap K × ν) : Prop :=
  R.Reduces x.1 y.1 ∧ R.ReducesDdts x.2.1 y.2.1 ∧ x.2.2 = y.2.2

/-- All trajectories. -/
theorem reduce_many {ι ν : Type} {est : ι → Snap K → Except Err (Snap K × Snap K × ν)} (hE : ∀ i, RowWise (est i))
    {R : Rom K T B} {n r : Nat} (h : R.Commutes n r) (hn : 0 < n) (Qs : List (Snap K)) (hQ : ∀ Q ∈ Qs, IsTraj n Q) :
    ∃ Xs, Forall₂ R.Reduces Qs Xs ∧ ∀ us : List ι,
      (∀ xs, ((zip Qs us).mapM fun p => est p.2 p.1) = .ok xs →
        ∃ ys, ((zip Xs us).mapM fun p => est p.2 p.1) = .ok ys ∧ Forall₂ R.Matches xs ys) ∧
      (0 < r → (∃ ys, ((zip Xs us).mapM fun p => est p.2 p.1) = .ok ys) →
        ∃ xs, ((zip Qs us).mapM fun p => est p.2 p.1) = .ok xs) := by
  induction Qs with
  | nil =>
    refine ⟨[], .nil, fun us => ⟨fun xs hxs => ⟨[], rfl, ?_⟩, fun _ _ => ⟨[], rfl⟩⟩⟩
    simp only [zip_nil_left, mapM_nil, pure, Except.pure, Except.ok.injEq] at hxs
    subst hxs
    exact .nil
  | cons Q Qs ih =>
    obtain ⟨Xs, g1, g2⟩ := ih fun Q hQ' => hQ Q (by simp [hQ'])
    have one := fun u => reduce_one (hE u) h hn (hQ Q (by simp))
    obtain ⟨X, -, g3, -⟩ := reduce_one (est := fun _ => .error .value) (ν := Unit) (fun k rows x _ _ hx => by cases hx)
      h hn (hQ Q (by simp))
    have same : ∀ X', R.Reduces Q X' → X' = X := by
      rintro X' ⟨M, a1, a2⟩
      obtain ⟨M', b1, b2⟩ := g3
      rw [a1] at b1
      cases b1
      rw [a2] at b2
      exact Except.ok.inj b2
    refine ⟨X :: Xs, .cons g3 g1, fun us => ?_⟩
    cases us with
    | nil =>
      refine ⟨fun xs hxs => ⟨[], rfl, ?_⟩, fun _ _ => ⟨[], rfl⟩⟩
      simp only [zip_nil_right, mapM_nil, pure, Except.pure, Except.ok.injEq] at hxs
      subst hxs
      exact .nil
    | cons u us =>
      obtain ⟨X', -, f1, f2, f3⟩ := one u
      have hX := same X' f1
      subst hX
      constructor
      · intro xs hxs
        have := mapM_ok_forall2.1 hxs
        rw [zip_cons_cons] at this
        cases this with
        | cons q1 q2 =>
          rename_i x xs
          obtain ⟨Y, Z, v⟩ := x
          obtain ⟨Y', Z', e1, e2, e3⟩ := f2 Y Z v q1
          obtain ⟨ys, e4, e5⟩ := (g2 us).1 xs (mapM_ok_forall2.2 q2)
          refine ⟨(Y', Z', v) :: ys, mapM_ok_forall2.2 ?_, .cons ⟨e1, e2, rfl⟩ e5⟩
          rw [zip_cons_cons]
          exact .cons e3 (mapM_ok_forall2.1 e4)
      · rintro hr0 ⟨ys, hys⟩
        have := mapM_ok_forall2.1 hys
        rw [zip_cons_cons] at this
        cases this with
        | cons q1 q2 =>
          obtain ⟨x, hx⟩ := f3 hr0 ⟨_, q1⟩
          obtain ⟨xs, hxs⟩ := (g2 us).2 hr0 ⟨_, mapM_ok_forall2.2 q2⟩
          refine ⟨x :: xs, mapM_ok_forall2.2 ?_⟩
          rw [zip_cons_cons]
          exact .cons hx (mapM_ok_forall2.1 hxs)

/-- The result of `estimateTrain` in one form for data with and without inputs. -/
theorem estimateTrain_inputs (E : DdtI K) (states us : List (Snap K)) (d : TrainData K) :
    estimateTrain E states (some us) = .ok d ↔ ∃ xs, xs ≠ [] ∧
      ((zip states us).mapM fun p => E.estimateWith p.1 p.2) = .ok xs ∧
      d = ⟨xs.map fun x => x.1, xs.map fun x => x.2.1, some (xs.map fun x => x.2.2)⟩ := by
  simp only [estimateTrain]
  cases hm : (zip states us).mapM fun p => E.estimateWith p.1 p.2 with
  | error e => simp
  | ok xs => cases xs with
    | nil => simp
    | cons x xs => simp [eq_comm]

theorem estimateTrain_plain (E : DdtI K) (states : List (Snap K)) (d : TrainData K) :
    estimateTrain E states none = .ok d ↔ ∃ xs, xs ≠ [] ∧
      ((zip states (states.map fun _ => ())).mapM fun p => E.plain p.1) = .ok xs ∧
      d = ⟨xs.map fun x => x.1, xs.map fun x => x.2.1, none⟩ := by
  have key : ((zip states (states.map fun _ => ())).mapM fun p => E.plain p.1) =
      (states.mapM E.estimate).map fun xs => xs.map fun x => (x.1, x.2, ()) := by
    induction states with
    | nil => rfl
    | cons Q Qs ih =>
      rw [map_cons, zip_cons_cons, mapM_cons, mapM_cons, ih]
      simp only [DdtI.plain]
      cases E.estimate Q with
      | error e => rfl
      | ok x => cases Qs.mapM E.estimate with
        | error e => rfl
        | ok xs => rfl
  rw [key]
  simp only [estimateTrain]
  cases hm : states.mapM E.estimate with
  | error e => simp [Except.map]
  | ok xs => cases xs with
    | nil => simp [Except.map]
    | cons x xs =>
      constructor
      · intro h
        cases h
        exact ⟨_, by simp, rfl, by simp [Function.comp_def]⟩
      · rintro ⟨ys, -, h, rfl⟩
        cases h
        simp [Function.comp_def]

/-- The reduced training data are the reduced estimates. -/
theorem estimateTrain_reduced {E : DdtI K} (hE : E.RowWise) {R : Rom K T B} {n r : Nat} (h : R.Commutes n r)
    (hn : 0 < n) (states : List (Snap K)) (inputs : Option (List (Snap K))) (hQ : ∀ Q ∈ states, IsTraj n Q) :
    ∃ Xs, Forall₂ R.Reduces states Xs ∧
      (∀ d, estimateTrain E states inputs = .ok d → ∃ d', estimateTrain E Xs inputs = .ok d' ∧
        Forall₂ R.Reduces d.states d'.states ∧ Forall₂ R.ReducesDdts d.lhs d'.lhs ∧ d'.inputs = d.inputs) ∧
      (0 < r → (∃ d', estimateTrain E Xs inputs = .ok d') → ∃ d, estimateTrain E states inputs = .ok d) := by
  cases inputs with
  | none =>
    obtain ⟨Xs, g1, g2⟩ := reduce_many (est := fun _ : Unit => E.plain) (fun _ => hE.plain) h hn states hQ
    have hu : (Xs.map fun _ => ()) = states.map fun _ => () := by
      rw [map_const', map_const', g1.length_eq]
    refine ⟨Xs, g1, ?_, ?_⟩
    · intro d hd
      obtain ⟨xs, h0, h1, rfl⟩ := (estimateTrain_plain E states d).1 hd
      obtain ⟨ys, h2, h3⟩ := (g2 _).1 xs h1
      refine ⟨_, (estimateTrain_plain E Xs _).2 ⟨ys, forall2_ne_nil h3 h0, by rw [hu]; exact h2, rfl⟩, ?_, ?_, rfl⟩
      · simp only [forall₂_map_left_iff, forall₂_map_right_iff]
        exact h3.imp fun _ _ h => h.1
      · simp only [forall₂_map_left_iff, forall₂_map_right_iff]
        exact h3.imp fun _ _ h => h.2.1
    · rintro hr0 ⟨d', hd'⟩
      obtain ⟨ys, h0, h1, rfl⟩ := (estimateTrain_plain E Xs d').1 hd'
      rw [hu] at h1
      obtain ⟨xs, h2⟩ := (g2 _).2 hr0 ⟨ys, h1⟩
      obtain ⟨ys', h3, h4⟩ := (g2 _).1 xs h2
      have : ys' = ys := by rw [h1] at h3; exact (Except.ok.inj h3).symm
      subst this
      exact ⟨_, (estimateTrain_plain E states _).2 ⟨xs, forall2_ne_nil h4.flip h0, h2, rfl⟩⟩
  | some us =>
    obtain ⟨Xs, g1, g2⟩ := reduce_many (est := fun U Y => E.estimateWith Y U) hE.inputs h hn states hQ
    refine ⟨Xs, g1, ?_, ?_⟩
    · intro d hd
      obtain ⟨xs, h0, h1, rfl⟩ := (estimateTrain_inputs E states us d).1 hd
      obtain ⟨ys, h2, h3⟩ := (g2 us).1 xs h1
      refine ⟨_, (estimateTrain_inputs E Xs us _).2 ⟨ys, forall2_ne_nil h3 h0, h2, rfl⟩, ?_, ?_, ?_⟩
      · simp only [forall₂_map_left_iff, forall₂_map_right_iff]
        exact h3.imp fun _ _ h => h.1
      · simp only [forall₂_map_left_iff, forall₂_map_right_iff]
        exact h3.imp fun _ _ h => h.2.1
      · simp only [Option.some.injEq]
        rw [← forall₂_eq_eq_eq]
        simp only [forall₂_map_left_iff, forall₂_map_right_iff]
        exact h3.flip.imp fun _ _ h => h.2.2.symm
    · rintro hr0 ⟨d', hd'⟩
      obtain ⟨ys, h0, h1, rfl⟩ := (estimateTrain_inputs E Xs us d').1 hd'
      obtain ⟨xs, h2⟩ := (g2 us).2 hr0 ⟨ys, h1⟩
      obtain ⟨ys', h3, h4⟩ := (g2 us).1 xs h2
      have : ys' = ys := by rw [h1] at h3; exact (Except.ok.inj h3).symm
      subst this
      exact ⟨_, (estimateTrain_inputs E states us _).2 ⟨xs, forall2_ne_nil h4.flip h0, h2, rfl⟩⟩

/-- A time-continuous reduced-order model without lifter whose parts commute with row operations. -/
structure FRom.Commutes (R : FRom K T B S) (E : DdtI K) (n r : Nat) : Prop where
  lifter : R.rom.lifter = none
  continuous : R.rom.continuous = true
  estimator : R.ddt = some E
  rows : E.RowWise
  parts : R.rom.Commutes n r
  pos : 0 < n

/-- **C112.** Processing the original trajectories, where the derivatives of the reduced states are estimated, gives the
same training data as first estimating the derivatives of the original states, with the same estimator, and then
processing states and derivatives. -/
theorem C112_training_data {R : FRom K T B S} {E : DdtI K} {n r : Nat} (h : R.Commutes E n r) (states : List (Snap K))
    (inputs : Option (List (Snap K))) (hQ : ∀ Q ∈ states, IsTraj n Q) (d : TrainData K)
    (hd : estimateTrain E states inputs = .ok d) :
    R.process states none inputs false false = R.process d.states (some d.lhs) d.inputs false false ∧
      ∃ d', R.process states none inputs false false = (R, .ok d') := by
  obtain ⟨Xs, g1, g2, -⟩ := estimateTrain_reduced h.rows h.parts h.pos states inputs hQ
  obtain ⟨d', e1, e2, e3, e4⟩ := g2 d hd
  have a1 : R.process states none inputs false false = (R, .ok d') := by
    have hs : (⟨R.rom, some E, R.model⟩ : FRom K T B S) = R := by rw [← h.estimator]
    simp only [FRom.process, reduceTrain_states h.lifter g1, FRom.lhsTrain, h.continuous, if_true, h.estimator, e1]
    rw [hs]
  have a2 : R.process d.states (some d.lhs) d.inputs false false = (R, .ok d') := by
    simp only [FRom.process, reduceTrain_both h.lifter h.continuous e2 e3, FRom.lhsTrain, ← e4]
  exact ⟨a1.trans a2.symm, d', a1⟩

/-- **C112.** One way works if and only if the other one does. -/
theorem C112_same_success {R : FRom K T B S} {E : DdtI K} {n r : Nat} (h : R.Commutes E n r) (hr : 0 < r)
    (states : List (Snap K)) (inputs : Option (List (Snap K))) (hQ : ∀ Q ∈ states, IsTraj n Q) :
    (∃ d', (R.process states none inputs false false).2 = .ok d') ↔
      ∃ d, estimateTrain E states inputs = .ok d := by
  constructor
  · rintro ⟨d', hd'⟩
    obtain ⟨Xs, g1, -, g3⟩ := estimateTrain_reduced h.rows h.parts h.pos states inputs hQ
    simp only [FRom.process, reduceTrain_states h.lifter g1, FRom.lhsTrain, h.continuous, if_true, h.estimator] at hd'
    exact g3 hr ⟨d', hd'⟩
  · rintro ⟨d, hd⟩
    obtain ⟨-, d', h2⟩ := C112_training_data h states inputs hQ d hd
    exact ⟨d', by rw [h2]⟩

/-- **C112.** So `fit` gives the same result with and without the estimated derivatives as an argument: several
trajectories. -/
theorem C112_fit (I : SolverI K S) {R : FRom K T B S} {E : DdtI K} {n r : Nat} (h : R.Commutes E n r)
    (states : List (Snap K)) (inputs : Option (List (Snap K))) (hQ : ∀ Q ∈ states, IsTraj n Q) (d : TrainData K)
    (hd : estimateTrain E states inputs = .ok d) :
    R.fit I (.many states) none (inputs.map .many) false false =
      R.fit I (.many d.states) (some (.many d.lhs)) (d.inputs.map .many) false false := by
  have hp := (C112_training_data h states inputs hQ d hd).1
  have hi : d.inputs.isNone = inputs.isNone := by
    cases inputs with
    | none => obtain ⟨xs, -, -, rfl⟩ := (estimateTrain_plain E states d).1 hd; rfl
    | some us => obtain ⟨xs, -, -, rfl⟩ := (estimateTrain_inputs E states us d).1 hd; rfl
  have hs : states ≠ [] ∧ d.states ≠ [] := by
    cases inputs with
    | none =>
      obtain ⟨xs, h0, h1, rfl⟩ := (estimateTrain_plain E states d).1 hd
      refine ⟨?_, by simpa using h0⟩
      rintro rfl
      cases h1
      exact h0 rfl
    | some us =>
      obtain ⟨xs, h0, h1, rfl⟩ := (estimateTrain_inputs E states us d).1 hd
      refine ⟨?_, by simpa using h0⟩
      rintro rfl
      cases h1
      exact h0 rfl
  have hc : R.checkFitArgs true inputs.isNone = R.checkFitArgs false inputs.isNone := by
    simp [FRom.checkFitArgs, h.estimator]
  have single : ∀ (l : List (Snap K)), l ≠ [] → TrainArg.isSingle (.many l) = .ok false := by
    intro l hl
    cases l with
    | nil => exact absurd rfl hl
    | cons _ _ => rfl
  have opt : ∀ u : Option (List (Snap K)), optList false (u.map TrainArg.many) = .ok u := by
    intro u; cases u <;> rfl
  have n1 : (inputs.map TrainArg.many).isNone = inputs.isNone := by cases inputs <;> rfl
  have n2 : (d.inputs.map TrainArg.many).isNone = inputs.isNone := by rw [← hi]; cases d.inputs <;> rfl
  simp only [FRom.fit, Option.isNone_none, Option.isNone_some, n1, n2, hc]
  cases R.checkFitArgs false inputs.isNone with
  | error e => rfl
  | ok _ =>
    have f1 : fixLists (.many states) none (inputs.map .many) = .ok (states, none, inputs) := by
      simp only [fixLists, single states hs.1, opt, bind, Except.bind]
      rfl
    have f2 : fixLists (.many d.states) (some (.many d.lhs)) (d.inputs.map .many) =
        .ok (d.states, some d.lhs, d.inputs) := by
      simp only [fixLists, single d.states hs.2, opt, bind, Except.bind]
      rfl
    simp only [f1, f2, FRom.fitLists, hp]

/-- **C112.** One trajectory. -/
theorem C112_fit_one (I : SolverI K S) {R : FRom K T B S} {E : DdtI K} {n r : Nat} (h : R.Commutes E n r) (Q : Snap K)
    (hQ : IsTraj n Q) :
    (∀ Y Z, E.estimate Q = .ok (Y, Z) → R.fit I (.one Q) none none false false =
      R.fit I (.one Y) (some (.one Z)) none false false) ∧
    ∀ U Y Z V, E.estimateWith Q U = .ok (Y, Z, V) → R.fit I (.one Q) none (some (.one U)) false false =
      R.fit I (.one Y) (some (.one Z)) (some (.one V)) false false := by
  have same : ∀ (Q Q' : Snap K) (Z : Option (Snap K)) (U : Option (Snap K)),
      R.fit I (.one Q) (Z.map .one) (U.map .one) false false =
        R.fit I (.many [Q]) ((Z.map fun z => [z]).map .many) ((U.map fun z => [z]).map .many) false false := by
    intro Q Q' Z U
    cases Z <;> cases U <;> rfl
  constructor
  · intro Y Z he
    have := C112_fit I h [Q] none (by simpa using hQ) ⟨[Y], [Z], none⟩ (by
      simp only [estimateTrain, mapM_cons, he, mapM_nil, bind, Except.bind, pure, Except.pure, map_cons, map_nil])
    exact (same Q Q none none).trans (this.trans (same Y Y (some Z) none).symm)
  · intro U Y Z V he
    have := C112_fit I h [Q] (some [U]) (by simpa using hQ) ⟨[Y], [Z], some [V]⟩ (by
      simp only [estimateTrain, zip_cons_cons, zip_nil_left, mapM_cons, he, mapM_nil, bind, Except.bind, pure, Except.pure,
        map_cons, map_nil])
    exact (same Q Q none (some U)).trans (this.trans (same Y Y (some Z) (some V)).symm)

end

/-! ### The built-in estimators and transformers -/

/-- **C112.** All 18 schemes for uniform time steps. -/
theorem C112_uniform [Field K] [DecidableEq K] (s : Scheme) (dt : K) : (fdDdt s dt).RowWise := fd_rowWise s dt

/-- **C112.** The differences for any increasing times. -/
theorem C112_nonuniform [Field K] [LinearOrder K] [IsStrictOrderedRing K] {t : List K} (ht : t.Pairwise (· < ·)) :
    (nuDdt t).RowWise := nu_rowWise ht

/-- **C112.** Shifts, scalings with nonzero factors, trained shift-scale transformers, and no transformation. -/
theorem C112_transformers [Field K] [LinearOrder K] [IsStrictOrderedRing K] (sqrt : K → K) (n : Nat) :
    (∀ s : Shift K, shiftI.Commutes s s.qbar.length) ∧ (∀ s : Scale K, s.Ready n → scaleI.Commutes s n) ∧
      (∀ s : Sst K, s.Ready n → (sstI sqrt).Commutes s n) ∧
      ∀ s : Null, s.n = some n → (nullI (K := K)).Commutes s n :=
  ⟨fun s => C112_affine (shift_affine s), fun _ h => C112_affine (scale_affine h),
    fun _ h => C112_affine (sst_affine sqrt h), fun _ h => C112_affine (null_affine h)⟩

/-- **C112.** Proper orthogonal decompositions. -/
theorem C112_pod [Field K] [LinearOrder K] (ext : PodExt K) (s : Pod K) (V : Cols K) (hV : s.lin.entries = some V)
    (hW : Weights.Fit V.n s.lin.weights) : (podI ext).Commutes s V.n V.cols.length :=
  fun k w keep diff hR rows hl hr => lin_commutes s.lin V hV hW k w keep diff hR rows hl hr

/-! ### Examples -/

/-- A shift by (1, 2). -/
def shiftEx : Shift ℚ := ⟨[1, 2], none⟩

/-- The basis vector (1, 1), with weights 2 and 3. -/
def basEx : LinB ℚ := ⟨none, some 2, some 1, some ⟨2, [[1, 1]]⟩, some (.diag [2, 3])⟩

/-- A reduced-order model with both parts. -/
def redEx (E : DdtI ℚ) : FRom ℚ (Shift ℚ) (LinB ℚ) Unit :=
  ⟨⟨none, some (shiftI, shiftEx), some (linI, basEx), true⟩, some E, ⟨[], false, none, none, false, none⟩⟩

theorem redEx_commutes {E : DdtI ℚ} (hE : E.RowWise) : (redEx E).Commutes E 2 1 where
  lifter := rfl
  continuous := rfl
  estimator := rfl
  rows := hE
  parts := ⟨fun x hx => by cases hx; exact C112_affine (shift_affine shiftEx),
    fun x hx => by cases hx; exact C112_linear_basis basEx ⟨2, [[1, 1]]⟩ rfl rfl, fun h => by cases h⟩
  pos := by omega

/-- Two trajectories. -/
def trajEx : List (Snap ℚ) := [.mat 4 [[0, 1, 4, 9], [1, 1, 2, 2]], .mat 3 [[1, 0, 1], [0, 2, 5]]]

-- the hypotheses hold for both kinds of estimators
example : (redEx (fdDdt .fwd1 (1 / 2))).Commutes (fdDdt .fwd1 (1 / 2)) 2 1 := redEx_commutes (C112_uniform _ _)
example : (redEx (nuDdt [0, 1, 3, 4])).Commutes (nuDdt [0, 1, 3, 4]) 2 1 :=
  redEx_commutes (C112_nonuniform (by decide))
example : ∀ Q ∈ trajEx, IsTraj 2 Q := by
  intro Q hQ
  simp only [trajEx, mem_cons, not_mem_nil, or_false] at hQ
  rcases hQ with rfl | rfl
  · exact ⟨4, by simp [Snap.WF], rfl, rfl⟩
  · exact ⟨3, by simp [Snap.WF], rfl, rfl⟩

-- the reduced data
example : ((redEx (fdDdt .fwd1 (1 / 2))).process trajEx none none false false).2 =
    .ok ⟨[.mat 3 [[-5, -3, 6]], .mat 2 [[-6, -2]]], [.mat 3 [[4, 18, 20]], .mat 2 [[8, 22]]], none⟩ := by
  decide +kernel

-- the estimates of the original data
example : estimateTrain (fdDdt .fwd1 (1 / 2)) trajEx none =
    .ok ⟨[.mat 3 [[0, 1, 4], [1, 1, 2]], .mat 2 [[1, 0], [0, 2]]],
      [.mat 3 [[2, 6, 10], [0, 2, 0]], .mat 2 [[-2, 2], [4, 6]]], none⟩ := by decide +kernel

/-- A reduced-order model with a lifter. -/
def liftRedEx : FRom ℚ Unit Unit Unit :=
  ⟨⟨some quadLifter, none, none, true⟩, some (fdDdt .fwd1 1), ⟨[], false, none, none, false, none⟩⟩

/-- **C112, limit.** With a lifter it does matter: the difference of the squares is not the chain rule applied to the
difference. -/
theorem C112_lifting_matters : ∃ d, estimateTrain (fdDdt .fwd1 (1 : ℚ)) [.mat 2 [[0, 1]]] none = .ok d ∧
    (liftRedEx.process [.mat 2 [[0, 1]]] none none false false).2 =
      .ok ⟨[.mat 1 [[0], [0]]], [.mat 1 [[1], [1]]], none⟩ ∧
    (liftRedEx.process d.states (some d.lhs) d.inputs false false).2 =
      .ok ⟨[.mat 1 [[0], [0]]], [.mat 1 [[1], [0]]], none⟩ :=
  ⟨⟨[.mat 1 [[0]]], [.mat 1 [[1]]], none⟩, by decide +kernel, by decide +kernel, by decide +kernel⟩

end Opinf
