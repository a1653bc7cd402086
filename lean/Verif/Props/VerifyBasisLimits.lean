import Verif.Props.VerifyBasis
import Verif.Lemmas.Affine
import Verif.Props.PodOptimal

/-!
# C90: what acceptance and refusal of a basis by `verify()` mean
-/

namespace Opinf

open List

variable {K S : Type}

section Sound

variable [Field K] [LinearOrder K]

theorem compareAt_inv {R Y : Snap K} (h : compareAt R Y = .ok ()) : sameDims R Y = true ∧ R.Near Y := by
  simp only [compareAt, bind, Except.bind] at h
  cases h1 : insist (sameDims R Y) with
  | error e => simp only [h1] at h; cases h
  | ok u =>
    simp only [h1] at h
    exact ⟨insist_ok h1, allClose_near (insist_ok h)⟩

theorem verifyShapes_inv {I : BasI K S} {s : S} {Y y Z P : Snap K} (h : I.verifyShapes s Y y = .ok (Z, P)) :
    I.compress s Y = .ok Z ∧ Z.shapeOne = Y.shapeOne ∧ I.decompress s Z none = .ok P ∧ sameDims P Y = true ∧
      ∃ z p, I.compress s y = .ok (.vec z) ∧ I.decompress s (.vec z) none = .ok (.vec p) := by
  simp only [BasI.verifyShapes, bind, Except.bind] at h
  cases h1 : I.compress s Y with
  | error e => simp only [h1] at h; cases h
  | ok Z1 =>
  simp only [h1] at h
  cases h2 : Z1.shapeOne with
  | error e => simp only [h2] at h; cases h
  | ok a =>
  simp only [h2] at h
  cases h3 : Y.shapeOne with
  | error e => simp only [h3] at h; cases h
  | ok b =>
  simp only [h3] at h
  cases h4 : insist (decide (a = b)) with
  | error e => simp only [h4] at h; cases h
  | ok u =>
  simp only [h4] at h
  have hab : a = b := by simpa using insist_ok h4
  cases h5 : I.compress s y with
  | error e => simp only [h5] at h; cases h
  | ok z =>
  simp only [h5] at h
  cases h6 : insist z.isVec with
  | error e => simp only [h6] at h; cases h
  | ok u =>
  simp only [h6] at h
  cases h7 : I.decompress s Z1 none with
  | error e => simp only [h7] at h; cases h
  | ok P1 =>
  simp only [h7] at h
  cases h8 : insist (sameDims P1 Y) with
  | error e => simp only [h8] at h; cases h
  | ok u =>
  simp only [h8] at h
  cases h9 : I.decompress s z none with
  | error e => simp only [h9] at h; cases h
  | ok p =>
  simp only [h9] at h
  cases h10 : insist p.isVec with
  | error e => simp only [h10] at h; cases h
  | ok u =>
  simp only [h10, pure, Except.pure, Except.ok.injEq, Prod.mk.injEq] at h
  obtain ⟨rfl, rfl⟩ := h
  refine ⟨rfl, by rw [h2, hab], h7, insist_ok h8, ?_⟩
  have hz := insist_ok h6
  have hp := insist_ok h10
  cases z with
  | mat k rows => cases hz
  | vec z =>
    cases p with
    | mat k rows => cases hp
    | vec p => exact ⟨z, p, rfl, h9⟩

/-- C90: what acceptance of a basis of any class establishes: the basis has a dimension; the drawn states have
coordinates with the same number of columns; single states and coordinates stay single; the decompressed states
have the shape of the states; decompressing at the drawn locations gives nearly the same as selecting them
afterwards; projecting once more gives nearly the same. -/
theorem C90_accepted {I : BasI K S} {s : S} {d : Draw K} (h : I.verify s d = .ok ()) :
    (I.n s).isSome ∧ ∃ Z P W Q, I.compress s d.snap = .ok Z ∧ Z.shapeOne = .ok 20 ∧
      I.decompress s Z none = .ok P ∧ sameDims P d.snap = true ∧
      (∃ z p, I.compress s d.first = .ok (.vec z) ∧ I.decompress s (.vec z) none = .ok (.vec p)) ∧
      I.decompress s Z (some (.idx (d.locs.map fun i : Nat => (i : Int)))) = .ok W ∧ W.Near (P.pick d.locs) ∧
      I.project s P = .ok Q ∧ Q.Near P := by
  unfold BasI.verify BasI.verifyWith at h
  split at h
  · cases h
  rename_i hd
  refine ⟨Option.isSome_iff_ne_none.2 (by simpa using hd), ?_⟩
  simp only [bind, Except.bind] at h
  cases h1 : I.verifyShapes s d.snap d.first with
  | error e => simp only [h1] at h; cases h
  | ok ZP =>
  obtain ⟨Z, P⟩ := ZP
  simp only [h1] at h
  obtain ⟨a1, a2, a3, a4, a5⟩ := verifyShapes_inv h1
  cases h2 : I.verifyLocs s d.locs Z P with
  | error e => simp only [h2] at h; cases h
  | ok u =>
  simp only [h2] at h
  cases h3 : I.project s P with
  | error e => simp only [h3] at h; cases h
  | ok Q =>
  simp only [h3] at h
  simp only [BasI.verifyLocs, bind, Except.bind] at h2
  cases h4 : P.atLocs d.locs with
  | error e => simp only [h4] at h2; cases h2
  | ok Pl =>
  simp only [h4] at h2
  have hPl := atLocs_inv h4
  subst hPl
  cases h5 : I.decompress s Z (some (.idx (d.locs.map fun i : Nat => (i : Int)))) with
  | error e => simp only [h5] at h2; cases h2
  | ok W =>
  simp only [h5] at h2
  exact ⟨Z, P, W, Q, a1, a2, a3, a4, a5, h5, (compareAt_inv h2).2, h3, allClose_near (insist_ok h)⟩

/-- C90: a basis without a dimension (not fitted) raises AttributeError. -/
theorem C90_untrained (I : BasI K S) {s : S} (h : I.n s = none) (d : Draw K) : I.verify s d = .error .attribute := by
  simp only [BasI.verify, BasI.verifyWith, h, Option.isNone_none, if_true]

/-- C90: a multi-variable basis fails with the error of the first basis that is refused. -/
theorem C90_multi_refused {D : Type} (I : BasI K S) {verify : S → D → Except Err Unit} {bs : List S} {ds : List D}
    {b : S} {d' : D} {e : Err} (bs' : List S) (ds' : List D)
    (h : Forall₂ (fun b d => verify b d = .ok ()) bs ds) (he : verify b d' = .error e) (d : Draw K) :
    multiBasVerify I verify (bs ++ b :: bs') (ds ++ d' :: ds') d = .error e := by
  have : verifyEach verify (bs ++ b :: bs') (ds ++ d' :: ds') = .error e := by
    induction h with
    | nil => simp only [nil_append, verifyEach, he, bind, Except.bind]
    | cons h1 _ ih => simp only [cons_append, verifyEach, h1, bind, Except.bind, ih]
  simp only [multiBasVerify, this, bind, Except.bind]

end Sound

/-! ### Fitted POD bases -/

section Fitted

variable [Field K] [LinearOrder K] [IsStrictOrderedRing K]

/-- C90: a POD basis is accepted after every successful `fit` with the dense solver and any number of changes of
the dimension, if the library returns singular value decompositions and roots of the weights (as in C74). -/
theorem C90_pod_fitted (ext : PodExt K) (s : Pod K) (hm : s.mos = false) (hc : s.crit.sane) (n k : Nat)
    (rows : List (List K)) (hY : (Snap.mat k rows).Shaped n (some k)) (hroot : RootOf ext n s.lin.weights)
    (hsvd : ∀ Z L vals R, Z.Shaped n (some k) → ext.engine none Z = .ok (L, vals, R) →
      IsThinSvd n (columnsOf Z) L vals R)
    (s' : Pod K) (hfit : s.fit ext (.mat k rows) = (s', .ok ())) (os : List (PodCall K))
    (hos : ∀ o ∈ os, o.dimensionOnly ∧ o.sane) {d : Draw K} (hd : d.Fits n n) :
    (podI ext).verify (os.foldl (PodCall.run ext) s') d = .ok () := by
  obtain ⟨V, P, rho, hb, hV, _⟩ := C74_best_basis ext s hm hc n k rows hY hroot hsvd s' hfit os hos
  obtain ⟨_, _, _, _, _, _, _, _, _, _, _, _, e7⟩ := pod_fit_inv ext s k rows s' hfit
  obtain ⟨c1, c2⟩ := e7 hc
  obtain ⟨f1, _, _⟩ := dimension_calls ext os hos s' c1 c2
  have hn : (os.foldl (PodCall.run ext) s').lin.n = some V.n := by
    cases hs : (os.foldl (PodCall.run ext) s').svd with
    | none =>
      have := (f1.untrained hs).1
      rw [hb.has.entries] at this
      cases this
    | some dat =>
      obtain ⟨r, _, _, h3, h4, _⟩ := f1.trained dat hs
      rw [hb.has.entries] at h4
      rw [h3, (congrArg Cols.n (Option.some.inj h4) : V.n = _)]
  exact C90_pod (V := V) { hb.has with dims := ⟨hn, hb.dim⟩ } hb.orth (by rw [hV]; exact hd)

end Fitted

/-! ### Small entries -/

/-- The random numbers are at most 1 in absolute value. -/
def Draw.Unit [Ring K] [LinearOrder K] (d : Draw K) : Prop := ∀ row ∈ d.states, ∀ x ∈ row, |x| ≤ 1

/-- A basis of one vector with one entry. -/
def scalarBasis (v : ℚ) : LinB ℚ := ⟨none, some 1, some 1, some ⟨1, [[v]]⟩, none⟩

theorem scalarBasis_proper (v : ℚ) : (scalarBasis v).Proper ⟨1, [[v]]⟩ :=
  { entries := rfl, wf := by simp [Cols.WF], fit := trivial, dims := ⟨rfl, rfl⟩ }

theorem scalarBasis_project (v : ℚ) (k : Nat) (row : List ℚ) (hk : row.length = k) :
    linI.project (scalarBasis v) (.mat k [row]) = .ok (.mat k [row.map fun x => v * (v * x)]) := by
  have h0 : ∀ xs : List ℚ, xs.length = k → vadd (replicate k 0) xs = xs := fun xs h =>
    vadd_zero_left' k xs h
  have h1 : linI.compress (scalarBasis v) (.mat k [row]) = .ok (.mat k [row.map fun x => v * x]) := by
    change Except.ok (Snap.mat k [vadd (replicate k 0) (vsmul v row)]) = _
    rw [h0 _ (by simp [vsmul, hk])]
    rfl
  have h2 : linI.decompress (scalarBasis v) (.mat k [row.map fun x => v * x]) none =
      .ok (.mat k [row.map fun x => v * (v * x)]) := by
    change Except.ok (Snap.mat k [vadd (replicate k 0) (vsmul v (row.map fun x => v * x))]) = _
    rw [h0 _ (by simp [vsmul, hk]), vsmul, map_map]
    rfl
  simp only [BasI.project, h1, bind, Except.bind, h2]

/-- C90 fails in the other direction: acceptance does not mean that `project` is a projection. Whatever the random
numbers (at most 1), the basis with the single entry `v`, `0 < |v| ≤ 10⁻⁴`, is accepted although
`project(project(q))` differs from `project(q)` for every `q ≠ 0`, by the factor `v² ≤ 10⁻⁸`. -/
theorem C90_small_accepted (v : ℚ) (h0 : v ≠ 0) (hv : v ^ 2 ≤ 1 / 10 ^ 8) :
    (∀ d : Draw ℚ, d.Fits 1 1 → d.Unit → linI.verify (scalarBasis v) d = .ok ()) ∧
    ∀ q : ℚ, q ≠ 0 → ∃ p p', linI.project (scalarBasis v) (.mat 1 [[q]]) = .ok (.mat 1 [[p]]) ∧
      linI.project (scalarBasis v) (.mat 1 [[p]]) = .ok (.mat 1 [[p']]) ∧ p' = v ^ 2 * p ∧ p' ≠ p := by
  constructor
  · intro d hd hu
    obtain ⟨P, Q, e1, e2, e3, _⟩ := C90_linear_outcome (scalarBasis_proper v) (d := d) hd
    rw [e3]
    obtain ⟨states, locs⟩ := d
    have hrows : states.length = 1 := hd.rows
    obtain ⟨row, rfl⟩ := length_eq_one_iff.1 hrows
    have hrow : row.length = 20 := hd.width row mem_cons_self
    have e1 : linI.project (scalarBasis v) (.mat 20 [row]) = .ok P := e1
    rw [scalarBasis_project v 20 row hrow] at e1
    cases e1
    rw [scalarBasis_project v 20 _ (by simpa using hrow)] at e2
    cases e2
    refine .cons ?_ .nil
    rw [forall₂_map_left_iff, forall₂_same]
    intro x hx
    obtain ⟨y, hy, rfl⟩ := mem_map.1 hx
    have hy1 : |y| ≤ 1 := hu row mem_cons_self y hy
    have hv0 : 0 ≤ v ^ 2 := sq_nonneg v
    have : v * (v * (v * (v * y))) - v * (v * y) = v ^ 2 * ((v ^ 2 - 1) * y) := by ring
    unfold NearTo
    rw [this, abs_mul, abs_mul, abs_of_nonneg hv0]
    have h1 : |v ^ 2 - 1| ≤ 1 := by
      rw [abs_le]
      constructor
      · linarith
      · have : (1 : ℚ) / 10 ^ 8 ≤ 2 := by decide +kernel
        linarith
    have h2 : |v ^ 2 - 1| * |y| ≤ 1 := by
      calc |v ^ 2 - 1| * |y| ≤ 1 * 1 := mul_le_mul h1 hy1 (abs_nonneg _) (by decide +kernel)
        _ = 1 := one_mul 1
    have h3 : v ^ 2 * (|v ^ 2 - 1| * |y|) ≤ v ^ 2 * 1 := mul_le_mul_of_nonneg_left h2 hv0
    have h4 : 0 ≤ (1 : ℚ) / 10 ^ 5 * |v * (v * y)| := mul_nonneg (by decide +kernel) (abs_nonneg _)
    linarith
  · intro q hq
    refine ⟨v * (v * q), v * (v * (v * (v * q))), scalarBasis_project v 1 [q] rfl,
      scalarBasis_project v 1 [v * (v * q)] rfl, by ring, ?_⟩
    intro he
    have hp : v * (v * q) ≠ 0 := mul_ne_zero h0 (mul_ne_zero h0 hq)
    have h1 : v ^ 2 * (v * (v * q)) = 1 * (v * (v * q)) := by
      rw [one_mul]
      calc v ^ 2 * (v * (v * q)) = v * (v * (v * (v * q))) := by ring
        _ = _ := he
    have h2 := mul_right_cancel₀ hp h1
    rw [h2] at hv
    have : ¬ (1 : ℚ) ≤ 1 / 10 ^ 8 := by decide +kernel
    exact this hv

/-! ### Examples -/

/-- Three rows with 20 entries each, and one location. -/
def drawThree : Draw ℚ :=
  ⟨(range 3).map fun i : Nat => (range 20).map fun j : Nat => ((i + j : Nat) : ℚ) / 22, [2]⟩

theorem drawThree_fits : drawThree.Fits 3 3 where
  rows := by simp [drawThree]
  width := by simp [drawThree]
  count := rfl
  sorted := by simp [drawThree]
  bound := by simp [drawThree]

/-- The entries of a basis, three rows, without weights. -/
def threeBasis (cols : List (List ℚ)) : LinB ℚ := ⟨none, some 3, some cols.length, some ⟨3, cols⟩, none⟩

/-- `C90_linear` applies to the weighted basis of C42. -/
example : linI.verify exBasis drawThree = .ok () :=
  C90_linear (b := exBasis) (V := ⟨3, [[1/2, 0, 0], [0, 3/5, 4/5]]⟩)
    { entries := rfl, wf := by simp [Cols.WF], fit := rfl, dims := ⟨rfl, rfl⟩ }
    ((orthonormal_iff _ _).2 (by decide +kernel)) drawThree_fits

/-- A basis that is not orthonormal is refused. -/
example : linI.verify (threeBasis [[1, 1, 0], [0, 1, 0]]) drawThree = .error .verification := by decide +kernel

/-- A basis with a zero vector is not orthonormal, but projects and is accepted. -/
example : linI.verify (threeBasis [[1, 0, 0], [0, 0, 0]]) drawThree = .ok () ∧
    ¬ Orthonormal (K := ℚ) ⟨3, [[1, 0, 0], [0, 0, 0]]⟩ none := by
  refine ⟨by decide +kernel, ?_⟩
  rw [orthonormal_iff]
  decide +kernel

/-- `C90_multi` applies to two variables of sizes 1 and 2. -/
example : multiBasVerify linI linI.verify
    [scalarBasis 1, (⟨none, some 2, some 1, some ⟨2, [[3/5, 4/5]]⟩, none⟩ : LinB ℚ)]
    [⟨[replicate 20 (1/3)], []⟩, ⟨[replicate 20 (1/3), replicate 20 (1/2)], []⟩] drawThree = .ok () := by
  have p1 := scalarBasis_proper 1
  have p2 : (⟨none, some 2, some 1, some ⟨2, [[3/5, 4/5]]⟩, none⟩ : LinB ℚ).Proper ⟨2, [[3/5, 4/5]]⟩ :=
    { entries := rfl, wf := by simp [Cols.WF], fit := trivial, dims := ⟨rfl, rfl⟩ }
  have o1 : Orthonormal (K := ℚ) ⟨1, [[1]]⟩ none := (orthonormal_iff _ _).2 (by decide +kernel)
  have o2 : Orthonormal (K := ℚ) ⟨2, [[3/5, 4/5]]⟩ none := (orthonormal_iff _ _).2 (by decide +kernel)
  refine C90_multi (ns := [1, 2]) (rs := [1, 1]) (nx := 3) (by simp) ?_ ?_ (by decide) drawThree_fits ?_
  · refine .cons (C90_linear p1 o1 ?_) (.cons (C90_linear p2 o2 ?_) .nil)
    · exact ⟨rfl, by simp, rfl, by simp, by simp⟩
    · exact ⟨rfl, by simp, rfl, by simp, by simp⟩
  · exact .cons (linear_works p1) (linear_projects p1 o1) (.cons (linear_works p2) (linear_projects p2 o2) .nil)
  · intro n hn
    have h1 := hn 1 (by simp)
    have h2 := hn 2 (by simp)
    omega

/-- Two variables of the same size: the locations are tested. -/
example : multiBasVerify linI linI.verify [threeBasis [[0, 1, 0]], threeBasis [[0, 0, 1], [1, 0, 0]]]
    [drawThree, drawThree] ⟨drawThree.states ++ drawThree.states, [1]⟩ = .ok () := by decide +kernel

/-- ... a `decompress` that ignores `locs` is refused. -/
example : ({ linI with decompress := fun b Z _ => linI.decompress b Z none } : BasI ℚ (LinB ℚ)).verify
    (threeBasis [[0, 1, 0]]) drawThree = .error .verification := by decide +kernel

/-- The random numbers of the examples are at most 1. -/
example : drawThree.Unit := by
  have : drawThree.states.all (fun row => row.all fun x => decide (|x| ≤ 1)) = true := by decide +kernel
  intro row hr x hx
  simpa using all_eq_true.1 (all_eq_true.1 this row hr) x hx

end Opinf
