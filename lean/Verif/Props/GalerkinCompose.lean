import Verif.Props.ActAlike
import Verif.Props.OpAdd
import Verif.Props.Total
import Verif.Props.Affine
import Verif.Props.CondTrunc

/-!
# C114: repeated Galerkin projection
-/

namespace Opinf

open List

variable {K : Type}

/-! ### Specification -/

/-- The test basis for projecting in one step is `Wr1 @ X` with `(Wr1ᵀ Vr1)ᵀ X = Wr2`. -/
def OneStep [CommSemiring K] (r₁ r₂ : Nat) (V₁ W₁ W₂ X : List (List K)) : Prop :=
  X.length = r₁ ∧ (∀ row ∈ X, row.length = r₂) ∧ matMul r₂ (transpose r₁ (gram r₁ W₁ V₁)) X = W₂

/-- A matrix with `n` rows and `r` columns. -/
def IsMat (n r : Nat) (V : List (List K)) : Prop := V.length = n ∧ ∀ row ∈ V, row.length = r

/-- The linear solver handles the matrix `Wrᵀ Vr` if it is used at all. -/
def SolvesGram [Field K] (solve : List (List K) → Mat K → Except Err (Mat K)) (r : Nat) (V W : List (List K)) : Prop :=
  gram r W V ≠ eye r → SolvesExactly solve (gram r W V) r

/-- The leading columns. -/
def leading (r : Nat) (V : List (List K)) : List (List K) := V.map (take r)

/-! ### Linear algebra -/

theorem ext_matVec [Field K] {c : Nat} {A B : List (List K)} (hl : A.length = B.length) (hA : ∀ a ∈ A, a.length = c)
    (hB : ∀ b ∈ B, b.length = c) (h : ∀ x : List K, x.length = c → matVec A x = matVec B x) : A = B := by
  refine ext_getElem hl fun i h1 h2 => ext_dot (hA _ (getElem_mem _)) (hB _ (getElem_mem _)) fun x hx => ?_
  have e := congrArg (fun l => l.getD i 0) (h x hx)
  simp only [matVec] at e
  rw [Opinf.getD_eq_getElem _ 0 (by simpa using h1), Opinf.getD_eq_getElem _ 0 (by simpa using h2)] at e
  simpa using e

theorem gram_isMat [Field K] {n r : Nat} {V : List (List K)} (W : List (List K)) (hV : IsMat n r V) :
    IsMat r r (gram r W V) := ⟨by simp [gram, matMul, transpose], matMul_rows _ _ _ hV.2⟩

theorem gram_matVec [Field K] {n r : Nat} {V : List (List K)} (W : List (List K)) (hV : IsMat n r V) (x : List K) :
    matVec (gram r W V) x = matVec (transpose r W) (matVec V x) := by rw [gram, matVec_matMul _ _ _ _ hV.2]

theorem eye_isMat [Field K] (r : Nat) : IsMat r r (eye r : List (List K)) := by
  refine ⟨by simp [eye], fun row h => ?_⟩
  obtain ⟨i, _, rfl⟩ := mem_map.1 h
  simp

theorem matMul_isMat [Field K] {n k r : Nat} {A B : List (List K)} (hA : IsMat n k A) (hB : IsMat k r B) :
    IsMat n r (matMul r A B) := ⟨by simp [matMul, hA.1], matMul_rows _ _ _ hB.2⟩

/-- The matrix `Wrᵀ Vr` is nonsingular. -/
theorem gram_injective [Field K] {solve : List (List K) → Mat K → Except Err (Mat K)} {n r : Nat}
    {V W : List (List K)} (hV : IsMat n r V) (h : SolvesGram solve r V W) {y y' : List K} (hy : y.length = r)
    (hy' : y'.length = r) (e : matVec (gram r W V) y = matVec (gram r W V) y') : y = y' := by
  by_cases hI : gram r W V = eye r
  · rwa [hI, matVec_eye r y hy, matVec_eye r y' hy'] at e
  obtain ⟨hl, hr⟩ := gram_isMat W hV
  obtain ⟨el, er⟩ := eye_isMat (K := K) r
  obtain ⟨Y, -, hw, h1, h2, h3⟩ := h hI ⟨r, r, eye r⟩ ⟨el, er⟩ rfl
  have hm := toM_matMul r r r _ Y.rows hl hr (by rw [hw.1, h1]) (fun b hb => by rw [hw.2 b hb, h2])
  simp only at h3
  rw [h3, toM_eye] at hm
  have hm' := mul_eq_one_comm.1 hm.symm
  have e' := congrArg (toV r) e
  rw [toV_matVec r r _ _ hl hr hy, toV_matVec r r _ _ hl hr hy'] at e'
  have e2 := congrArg (toM r r Y.rows).mulVec e'
  rw [Matrix.mulVec_mulVec, Matrix.mulVec_mulVec, hm', Matrix.one_mulVec, Matrix.one_mulVec] at e2
  exact toV_inj r y y' hy hy' e2

/-- The value of an operator with given entries. -/
def OpKind.value [CommSemiring K] (o : OpKind) (E : Mat K) (q u : List K) : List K := matVec E.rows (o.dataCol q u)

theorem OpKind.Fits.length_value [CommSemiring K] {o : OpKind} {E : Mat K} {r m : Nat} (h : o.Fits E r m) (q u : List K) :
    (o.value E q u).length = r := by rw [OpKind.value, length_matVec, h.1.1, h.2.1]

/-- Entries with the same values everywhere are the same. -/
theorem entries_determine [Field K] [Infinite K] {o : OpKind} {E F : Mat K} {r m : Nat} (hE : o.Fits E r m)
    (hF : o.Fits F r m) (h : ∀ q u : List K, q.length = r → u.length = m → o.value E q u = o.value F q u) : E = F := by
  have := sums_determine (L := [⟨o, some E⟩]) (L' := [⟨o, some F⟩]) (r := r) (m := m)
    (fun a ha => by rw [mem_singleton.1 ha]; exact ⟨E, rfl, hE⟩)
    (fun a ha => by rw [mem_singleton.1 ha]; exact ⟨F, rfl, hF⟩) rfl (by simp) fun q u hq hu => by
      simp only [rhsVal, map_cons, map_nil, foldl_cons, foldl_nil, Op.val, Option.getD_some]
      exact congrArg _ (h q u hq hu)
  simpa using this

section

variable [Field K] [CharZero K] [DecidableEq K] (solve : List (List K) → Mat K → Except Err (Mat K))

/-- The projection exists and is characterised by its values. -/
theorem galerkin_iff (o : OpKind) (E : Mat K) (n m r : Nat) (hn : 0 < n) (hr : 0 < r) (hE : o.Fits E n m)
    (V W : List (List K)) (hV : IsMat n r V) (hW : W.length = n) (hs : SolvesGram solve r V W) :
    ∃ F : Mat K, o.galerkin solve E r r V W = .ok F ∧ o.Fits F r m ∧
      (∀ q u : List K, q.length = r → u.length = m →
        matVec (gram r W V) (o.value F q u) = matVec (transpose r W) (o.value E (matVec V q) u)) ∧
      ∀ G : Mat K, o.Fits G r m → (∀ q u : List K, q.length = r → u.length = m →
        matVec (gram r W V) (o.value G q u) = matVec (transpose r W) (o.value E (matVec V q) u)) → G = F := by
  obtain ⟨F, h1, h2, h3⟩ := galerkin_rows solve o E n m r hn hr hE V W hV.1 hV.2 hW hs
  refine ⟨F, h1, h2, fun q u hq hu => (h3 q u hq hu).1, fun G hG hg => ?_⟩
  have : Infinite K := Infinite.of_injective (Nat.cast : ℕ → K) Nat.cast_injective
  refine entries_determine hG h2 fun q u hq hu => ?_
  refine gram_injective hV hs (hG.length_value q u) (h2.length_value q u) ?_
  rw [hg q u hq hu]
  exact (h3 q u hq hu).1.symm

/-! ### C114 -/

/-- **C114.** The Galerkin projection is the only operator of this class with `(Wrᵀ Vr) F(q̂, u) = Wrᵀ Op(Vr q̂, u)` at
all reduced states and inputs. -/
theorem C114_unique (o : OpKind) (E : Mat K) (n m r : Nat) (hn : 0 < n) (hr : 0 < r) (hE : o.Fits E n m)
    (V W : List (List K)) (hV : IsMat n r V) (hW : W.length = n) (hs : SolvesGram solve r V W) (F : Mat K)
    (hF : o.Fits F r m) :
    o.galerkin solve E r r V W = .ok F ↔
      ∀ q u : List K, q.length = r → u.length = m → ∃ y z, o.applyV F q u = .ok y ∧ o.applyV E (matVec V q) u = .ok z ∧
        matVec (gram r W V) y = matVec (transpose r W) z := by
  obtain ⟨F', h1, h2, h3, h4⟩ := galerkin_iff solve o E n m r hn hr hE V W hV hW hs
  constructor
  · intro e q u hq hu
    rw [h1, Except.ok.injEq] at e
    subst e
    exact ⟨_, _, applyV_eq o F' r m h2 q u hq hu, applyV_eq o E n m hE _ u (by rw [length_matVec, hV.1]) hu, h3 q u hq hu⟩
  · intro h
    rw [h1, h4 F hF fun q u hq hu => ?_]
    obtain ⟨y, z, e1, e2, e3⟩ := h q u hq hu
    rw [applyV_eq o F r m hF q u hq hu] at e1
    rw [applyV_eq o E n m hE _ u (by rw [length_matVec, hV.1]) hu] at e2
    cases e1; cases e2
    exact e3

omit [CharZero K] [DecidableEq K] in
theorem oneStep_transpose {n r₁ r₂ : Nat} {V₁ W₁ W₂ X : List (List K)} (hV : IsMat n r₁ V₁) (hW : IsMat n r₁ W₁)
    (hW2 : IsMat r₁ r₂ W₂) (hX : OneStep r₁ r₂ V₁ W₁ W₂ X) (y z : List K)
    (h : matVec (gram r₁ W₁ V₁) y = matVec (transpose r₁ W₁) z) :
    matVec (transpose r₂ (matMul r₂ W₁ X)) z = matVec (transpose r₂ W₂) y := by
  obtain ⟨hl, hr, he⟩ := hX
  have hW12 := matMul_isMat hW ⟨hl, hr⟩
  obtain ⟨gl, gr⟩ := gram_isMat W₁ hV
  refine ext_dot (n := r₂) (by simp [transpose, matVec]) (by simp [transpose, matVec]) fun x hx => ?_
  rw [matVec_transpose _ _ _ hW12.2, matVec_transpose _ _ _ hW2.2, dot_vecMat _ _ _ _ hW12.2, dot_vecMat _ _ _ _ hW2.2,
    matVec_matMul _ _ _ _ hr, ← he, matVec_matMul _ _ _ _ hr, ← dot_vecMat r₁ _ _ _ hW.2, ← matVec_transpose _ _ _ hW.2, ← h,
    matVec_transpose _ _ _ gr, dot_comm' y, dot_vecMat _ _ _ _ gr, dot_comm']

omit [CharZero K] [DecidableEq K] in
theorem oneStep_gram {n r₁ r₂ : Nat} {V₁ W₁ V₂ W₂ X : List (List K)} (hV : IsMat n r₁ V₁) (hW : IsMat n r₁ W₁)
    (hV2 : IsMat r₁ r₂ V₂) (hW2 : IsMat r₁ r₂ W₂) (hX : OneStep r₁ r₂ V₁ W₁ W₂ X) :
    gram r₂ (matMul r₂ W₁ X) (matMul r₂ V₁ V₂) = gram r₂ W₂ V₂ := by
  have g1 := gram_isMat (matMul r₂ W₁ X) (matMul_isMat hV hV2)
  have g2 := gram_isMat W₂ hV2
  refine ext_matVec (g1.1.trans g2.1.symm) g1.2 g2.2 fun x hx => ?_
  rw [gram_matVec _ (matMul_isMat hV hV2), gram_matVec _ hV2, matVec_matMul _ _ _ _ hV2.2]
  exact oneStep_transpose hV hW hW2 hX _ _ (gram_matVec _ hV _)

/-- **C114.** Projecting twice is projecting once: `op.galerkin(Vr1, Wr1).galerkin(Vr2, Wr2)` has the same entries as
`op.galerkin(Vr1 @ Vr2, Wr1 @ X)` with `(Wr1ᵀ Vr1)ᵀ X = Wr2`. -/
theorem C114_compose (o : OpKind) (E : Mat K) (n m r₁ r₂ : Nat) (hn : 0 < n) (hr₁ : 0 < r₁) (hr₂ : 0 < r₂)
    (hE : o.Fits E n m) (V₁ W₁ V₂ W₂ X : List (List K)) (hV₁ : IsMat n r₁ V₁) (hW₁ : IsMat n r₁ W₁)
    (hV₂ : IsMat r₁ r₂ V₂) (hW₂ : IsMat r₁ r₂ W₂) (hX : OneStep r₁ r₂ V₁ W₁ W₂ X)
    (hs₁ : SolvesGram solve r₁ V₁ W₁) (hs₂ : SolvesGram solve r₂ V₂ W₂) :
    ∃ F G : Mat K, o.galerkin solve E r₁ r₁ V₁ W₁ = .ok F ∧ o.Fits F r₁ m ∧ o.galerkin solve F r₂ r₂ V₂ W₂ = .ok G ∧
      o.Fits G r₂ m ∧ o.galerkin solve E r₂ r₂ (matMul r₂ V₁ V₂) (matMul r₂ W₁ X) = .ok G := by
  obtain ⟨F, f1, f2, f3, -⟩ := galerkin_iff solve o E n m r₁ hn hr₁ hE V₁ W₁ hV₁ hW₁.1 hs₁
  obtain ⟨G, g1, g2, g3, -⟩ := galerkin_iff solve o F r₁ m r₂ hr₁ hr₂ f2 V₂ W₂ hV₂ hW₂.1 hs₂
  have eG := oneStep_gram hV₁ hW₁ hV₂ hW₂ hX
  obtain ⟨H, h1, h2, h3, h4⟩ := galerkin_iff solve o E n m r₂ hn hr₂ hE (matMul r₂ V₁ V₂) (matMul r₂ W₁ X)
    (matMul_isMat hV₁ hV₂) (by simp [matMul, hW₁.1]) (by rw [SolvesGram, eG]; exact hs₂)
  refine ⟨F, G, f1, f2, g1, g2, ?_⟩
  rw [h1, h4 G g2 fun q u hq hu => ?_]
  have hVq : (matVec V₂ q).length = r₁ := by rw [length_matVec, hV₂.1]
  rw [eG, g3 q u hq hu, matVec_matMul _ _ _ _ hV₂.2]
  exact (oneStep_transpose hV₁ hW₁ hW₂ hX _ _ (f3 _ u hVq hu)).symm

omit [CharZero K] [DecidableEq K] in
theorem oneStep_biorthogonal {n r₁ r₂ : Nat} {V₁ W₁ W₂ : List (List K)} (hV : IsMat n r₁ V₁) (hW2 : IsMat r₁ r₂ W₂)
    (hI : gram r₁ W₁ V₁ = eye r₁) : OneStep r₁ r₂ V₁ W₁ W₂ W₂ := by
  refine ⟨hW2.1, hW2.2, ?_⟩
  have g := matMul_isMat (A := transpose r₁ (gram r₁ W₁ V₁)) (n := r₁)
    ⟨by simp [transpose], fun row h => by rw [transpose_rows _ _ row h, (gram_isMat W₁ hV).1]⟩ hW2
  refine ext_matVec (g.1.trans hW2.1.symm) g.2 hW2.2 fun x hx => ?_
  rw [matVec_matMul _ _ _ _ hW2.2, hI]
  refine ext_dot (n := r₁) (by simp [transpose, matVec]) (by rw [length_matVec, hW2.1]) fun y hy => ?_
  rw [matVec_transpose _ _ _ (eye_isMat r₁).2, dot_vecMat _ _ _ _ (eye_isMat r₁).2, matVec_eye _ _ hy]

/-- **C114** (biorthogonal bases). If `Wr1ᵀ Vr1 = I`, projecting twice is projecting once with `Vr1 @ Vr2` and
`Wr1 @ Wr2`. -/
theorem C114_compose_biorthogonal (o : OpKind) (E : Mat K) (n m r₁ r₂ : Nat) (hn : 0 < n) (hr₁ : 0 < r₁) (hr₂ : 0 < r₂)
    (hE : o.Fits E n m) (V₁ W₁ V₂ W₂ : List (List K)) (hV₁ : IsMat n r₁ V₁) (hW₁ : IsMat n r₁ W₁)
    (hV₂ : IsMat r₁ r₂ V₂) (hW₂ : IsMat r₁ r₂ W₂) (hI : gram r₁ W₁ V₁ = eye r₁) (hs₂ : SolvesGram solve r₂ V₂ W₂) :
    ∃ F G : Mat K, o.galerkin solve E r₁ r₁ V₁ W₁ = .ok F ∧ o.Fits F r₁ m ∧ o.galerkin solve F r₂ r₂ V₂ W₂ = .ok G ∧
      o.Fits G r₂ m ∧ o.galerkin solve E r₂ r₂ (matMul r₂ V₁ V₂) (matMul r₂ W₁ W₂) = .ok G :=
  C114_compose solve o E n m r₁ r₂ hn hr₁ hr₂ hE V₁ W₁ V₂ W₂ W₂ hV₁ hW₁ hV₂ hW₂ (oneStep_biorthogonal hV₁ hW₂ hI)
    (fun h => absurd hI h) hs₂

/-- **C114.** Projecting with identity matrices changes nothing. -/
theorem C114_identity (o : OpKind) (E : Mat K) (n m : Nat) (hn : 0 < n) (hE : o.Fits E n m) :
    o.galerkin solve E n n (eye n) (eye n) = .ok E := by
  have e := eye_isMat (K := K) n
  have ht : ∀ x : List K, x.length = n → matVec (transpose n (eye n)) x = x := fun x hx => by
    refine ext_dot (n := n) (by simp [transpose, matVec]) hx fun y hy => ?_
    rw [matVec_transpose _ _ _ e.2, dot_vecMat _ _ _ _ e.2, matVec_eye _ _ hy]
  have hg : gram n (eye n) (eye n) = (eye n : List (List K)) := by
    have g := gram_isMat (eye n) e
    refine ext_matVec (g.1.trans e.1.symm) g.2 e.2 fun x hx => ?_
    rw [gram_matVec _ e, matVec_eye _ _ hx, ht x hx]
  obtain ⟨F, h1, h2, h3, h4⟩ := galerkin_iff solve o E n m n hn hn hE (eye n) (eye n) e e.1 (fun h => absurd hg h)
  rw [h1, h4 E hE fun q u hq hu => ?_]
  rw [matVec_eye n q hq, hg, matVec_eye _ _ (hE.length_value q u), ht _ (hE.length_value q u)]

/-- **C114** (change of coordinates). For a square `Vr` with inverse `U`, the projected operator is `U Op(Vr q̂, u)`,
whatever the test basis. -/
theorem C114_square (o : OpKind) (E : Mat K) (n m : Nat) (hn : 0 < n) (hE : o.Fits E n m) (V U W : List (List K))
    (hV : IsMat n n V) (hU : IsMat n n U) (hW : W.length = n) (hVU : matMul n V U = eye n)
    (hs : SolvesGram solve n V W) :
    ∃ F : Mat K, o.galerkin solve E n n V W = .ok F ∧ o.Fits F n m ∧
      ∀ q u : List K, q.length = n → u.length = m →
        ∃ y, o.applyV E (matVec V q) u = .ok y ∧ o.applyV F q u = .ok (matVec U y) := by
  obtain ⟨F, f1, f2, f3, -⟩ := galerkin_iff solve o E n m n hn hn hE V W hV hW hs
  refine ⟨F, f1, f2, fun q u hq hu => ?_⟩
  have hVq : (matVec V q).length = n := by rw [length_matVec, hV.1]
  refine ⟨_, applyV_eq o E n m hE _ u hVq hu, ?_⟩
  rw [applyV_eq o F n m f2 q u hq hu]
  refine congrArg Except.ok (gram_injective hV hs (f2.length_value q u) (by rw [length_matVec, hU.1]) ?_)
  change matVec (gram n W V) (o.value F q u) = matVec (gram n W V) (matVec U (o.value E (matVec V q) u))
  rw [f3 q u hq hu, gram_matVec _ hV, ← matVec_matMul n _ _ _ hU.2, hVU, matVec_eye _ _ (hE.length_value _ u)]

/-- **C114** (change of coordinates and back). If `Vr @ U` is the identity, projecting with `Vr` and then with `U` (and
any test bases) returns the original operator. -/
theorem C114_back (o : OpKind) (E : Mat K) (n m : Nat) (hn : 0 < n) (hE : o.Fits E n m) (V U W Y : List (List K))
    (hV : IsMat n n V) (hU : IsMat n n U) (hW : W.length = n) (hY : Y.length = n) (hVU : matMul n V U = eye n)
    (hs : SolvesGram solve n V W) (hs' : SolvesGram solve n U Y) :
    ∃ F : Mat K, o.galerkin solve E n n V W = .ok F ∧ o.galerkin solve F n n U Y = .ok E := by
  obtain ⟨F, f1, f2, f3⟩ := C114_square solve o E n m hn hE V U W hV hU hW hVU hs
  obtain ⟨G, g1, g2, g3, g4⟩ := galerkin_iff solve o F n m n hn hn f2 U Y hU hY hs'
  refine ⟨F, f1, ?_⟩
  rw [g1, g4 E hE fun q u hq hu => ?_]
  have hUq : (matVec U q).length = n := by rw [length_matVec, hU.1]
  obtain ⟨y, e1, e2⟩ := f3 (matVec U q) u hUq hu
  rw [← matVec_matMul n _ _ _ hU.2, hVU, matVec_eye _ _ hq, applyV_eq o E n m hE q u hq hu] at e1
  cases e1
  rw [applyV_eq o F n m f2 _ u hUq hu, Except.ok.injEq] at e2
  rw [gram_matVec _ hU]
  exact congrArg _ e2.symm

/-- **C114.** The projection of a sum is the sum of the projections. -/
theorem C114_sum (a b : Op K) (n m r : Nat) (hn : 0 < n) (hr : 0 < r) (hk : a.kind = b.kind) (ha : a.Cal n m) (hb : b.Cal n m)
    (V W : List (List K)) (hV : IsMat n r V) (hW : W.length = n) (hs : SolvesGram solve r V W) :
    ∃ (A B C : Mat K) (F G H : Mat K), a.entries = some A ∧ b.entries = some B ∧ a.add b = .ok ⟨a.kind, some C⟩ ∧
      a.kind.galerkin solve A r r V W = .ok F ∧ a.kind.galerkin solve B r r V W = .ok G ∧
      a.kind.galerkin solve C r r V W = .ok H ∧ Op.add ⟨a.kind, some F⟩ ⟨a.kind, some G⟩ = .ok ⟨a.kind, some H⟩ := by
  obtain ⟨A, hA, fA⟩ := ha
  obtain ⟨B, hB, fB⟩ := hb
  have fB' := fB
  rw [← hk] at fB'
  have fC := sumRows_fits fA fB'
  obtain ⟨F, f1, f2, f3, -⟩ := galerkin_iff solve a.kind A n m r hn hr fA V W hV hW hs
  obtain ⟨G, g1, g2, g3, -⟩ := galerkin_iff solve a.kind B n m r hn hr fB' V W hV hW hs
  obtain ⟨H, h1, h2, h3, h4⟩ := galerkin_iff solve a.kind _ n m r hn hr fC V W hV hW hs
  have fFG := sumRows_fits f2 g2
  refine ⟨A, B, _, F, G, H, hA, hB, add_eq hn hk hA hB fA fB, f1, g1, h1, ?_⟩
  rw [add_eq (a := ⟨a.kind, some F⟩) (b := ⟨a.kind, some G⟩) hr rfl rfl rfl f2 g2, h4 _ fFG fun q u hq hu => ?_]
  simp only [OpKind.value, sumRows_matVec f2 g2, sumRows_matVec fA fB']
  have l1 := f2.length_value q u
  have l2 := g2.length_value q u
  have l3 := fA.length_value (matVec V q) u
  have l4 := fB'.length_value (matVec V q) u
  have e1 := f3 q u hq hu
  have e2 := g3 q u hq hu
  simp only [OpKind.value] at l1 l2 l3 l4 e1 e2
  rw [matVec_vadd _ _ _ (l1.trans l2.symm), matVec_vadd _ _ _ (l3.trans l4.symm), e1, e2]

omit [CharZero K] [DecidableEq K] in
theorem leading_isMat {n r₁ r₂ : Nat} (h : r₂ ≤ r₁) {V : List (List K)} (hV : IsMat n r₁ V) : IsMat n r₂ (leading r₂ V) := by
  refine ⟨by simp [leading, hV.1], fun row hrow => ?_⟩
  obtain ⟨x, hx, rfl⟩ := mem_map.1 hrow
  rw [length_take, hV.2 x hx]
  omega

omit [CharZero K] [DecidableEq K] in
/-- The leading columns applied to a vector. -/
theorem leading_matVec {n r₁ r₂ : Nat} (h : r₂ ≤ r₁) {V : List (List K)} (hV : IsMat n r₁ V) (x : List K) (hx : x.length = r₂) :
    matVec (leading r₂ V) x = matVec V (x ++ replicate (r₁ - r₂) 0) := by
  simp only [matVec, leading, map_map]
  refine map_congr_left fun row hrow => ?_
  have hl : (row.take r₂).length = x.length := by rw [length_take, hV.2 row hrow, hx]; omega
  conv_rhs => rw [← take_append_drop r₂ row]
  rw [dot_append _ _ _ _ hl, dot_comm' (row.drop r₂), dot_replicate_zero, add_zero]
  rfl

omit [CharZero K] [DecidableEq K] in
theorem leading_matMul {n r₁ r₂ : Nat} (h : r₂ ≤ r₁) {V : List (List K)} (hV : IsMat n r₁ V) :
    matMul r₂ V (leading r₂ (eye r₁)) = leading r₂ V := by
  have l1 := matMul_isMat hV (leading_isMat h (eye_isMat r₁))
  have l2 := leading_isMat h hV
  refine ext_matVec (l1.1.trans l2.1.symm) l1.2 l2.2 fun x hx => ?_
  rw [matVec_matMul _ _ _ _ (leading_isMat h (eye_isMat r₁)).2, leading_matVec h (eye_isMat r₁) x hx, leading_matVec h hV x hx,
    matVec_eye _ _ (by simp [hx]; omega)]

omit [CharZero K] [DecidableEq K] in
theorem leading_gram {r₁ r₂ : Nat} (h : r₂ ≤ r₁) :
    gram r₂ (leading r₂ (eye r₁)) (leading r₂ (eye r₁)) = (eye r₂ : List (List K)) := by
  have l := leading_isMat h (eye_isMat (K := K) r₁)
  have g := gram_isMat (leading r₂ (eye r₁)) l
  refine ext_matVec (g.1.trans (eye_isMat r₂).1.symm) g.2 (eye_isMat r₂).2 fun x hx => ?_
  rw [gram_matVec _ l, matVec_eye _ _ hx]
  refine ext_dot (n := r₂) (by simp [transpose, matVec]) hx fun y hy => ?_
  rw [matVec_transpose _ _ _ l.2, dot_vecMat _ _ _ _ l.2, leading_matVec h (eye_isMat r₁) x hx,
    leading_matVec h (eye_isMat r₁) y hy, matVec_eye _ _ (by simp [hx]; omega), matVec_eye _ _ (by simp [hy]; omega),
    dot_append _ _ _ _ (hx.trans hy.symm), dot_replicate_zero, add_zero]

/-- **C114** (truncation). For biorthogonal bases (for example an orthonormal `Vr = Wr`), the projection onto the leading
`r₂` columns is the projection of the projected operator onto the leading `r₂` coordinates: a reduced model of smaller
dimension can be obtained from the larger reduced model. -/
theorem C114_truncate (o : OpKind) (E : Mat K) (n m r₁ r₂ : Nat) (hn : 0 < n) (hr₂ : 0 < r₂) (h : r₂ ≤ r₁)
    (hE : o.Fits E n m) (V W : List (List K)) (hV : IsMat n r₁ V) (hW : IsMat n r₁ W) (hI : gram r₁ W V = eye r₁) :
    ∃ F G : Mat K, o.galerkin solve E r₁ r₁ V W = .ok F ∧
      o.galerkin solve F r₂ r₂ (leading r₂ (eye r₁)) (leading r₂ (eye r₁)) = .ok G ∧
      o.galerkin solve E r₂ r₂ (leading r₂ V) (leading r₂ W) = .ok G := by
  have l := leading_isMat h (eye_isMat (K := K) r₁)
  obtain ⟨F, G, h1, -, h3, -, h5⟩ := C114_compose_biorthogonal solve o E n m r₁ r₂ hn (by omega) hr₂ hE V W _ _ hV hW l l hI
    (fun hne => absurd (leading_gram h) hne)
  rw [leading_matMul h hV, leading_matMul h hW] at h5
  exact ⟨F, G, h1, h3, h5⟩

/-! ### Models -/

/-- The projection of one operator, as `Model.galerkin` does it. -/
def projectOp (r : Nat) (V W : List (List K)) (o : Op K) : Except Err (Op K) :=
  match o.entries with
  | none => o.copy
  | some E => do return (⟨o.kind, some (← o.kind.galerkin solve E r r V W)⟩ : Op K)

omit [CharZero K] in
theorem model_galerkin_eq {S : Type} (plain : S) (l2 : Int → S) (M : Model K S) (r : Nat) (V W : List (List K)) :
    M.galerkin solve plain l2 r r V W =
      (M.ops.mapM (projectOp solve r V W) >>= fun ops => Model.construct plain l2 (ops.map OpArg.op) .none) := rfl

omit [CharZero K] in
theorem projectOp_some {o : Op K} {E F : Mat K} {r : Nat} {V W : List (List K)} (hE : o.entries = some E)
    (h : o.kind.galerkin solve E r r V W = .ok F) : projectOp solve r V W o = .ok ⟨o.kind, some F⟩ := by
  rw [projectOp, hE]
  simp only [h]
  rfl

/-- **C114** (models). `model.galerkin(Vr1, Wr1).galerkin(Vr2, Wr2)` and `model.galerkin(Vr1 @ Vr2, Wr1 @ X)` are the same
model. -/
theorem C114_model {S : Type} (plain : S) (l2 : Int → S) (M : Model K S) (n m r₁ r₂ : Nat) (hM : M.Trained n m)
    (hr₁ : 0 < r₁) (hr₂ : 0 < r₂) (V₁ W₁ V₂ W₂ X : List (List K)) (hV₁ : IsMat n r₁ V₁) (hW₁ : IsMat n r₁ W₁)
    (hV₂ : IsMat r₁ r₂ V₂) (hW₂ : IsMat r₁ r₂ W₂) (hX : OneStep r₁ r₂ V₁ W₁ W₂ X)
    (hs₁ : SolvesGram solve r₁ V₁ W₁) (hs₂ : SolvesGram solve r₂ V₂ W₂) :
    ∃ N N', M.galerkin solve plain l2 r₁ r₁ V₁ W₁ = .ok N ∧ N.galerkin solve plain l2 r₂ r₂ V₂ W₂ = .ok N' ∧
      M.galerkin solve plain l2 r₂ r₂ (matMul r₂ V₁ V₂) (matMul r₂ W₁ X) = .ok N' := by
  have step : ∀ o ∈ M.ops, ∃ o₁, projectOp solve r₁ V₁ W₁ o = .ok o₁ ∧ (o₁.Cal r₁ m ∧ ∃ o₂ : Op K, o₂.Cal r₂ m ∧
      projectOp solve r₂ V₂ W₂ o₁ = .ok o₂ ∧ projectOp solve r₂ (matMul r₂ V₁ V₂) (matMul r₂ W₁ X) o = .ok o₂) := by
    intro o ho
    obtain ⟨E, hE, hF⟩ := hM.cal o ho
    obtain ⟨F, G, h1, h2, h3, h4, h5⟩ := C114_compose solve o.kind E n m r₁ r₂ hM.pos hr₁ hr₂ hF V₁ W₁ V₂ W₂ X hV₁ hW₁
      hV₂ hW₂ hX hs₁ hs₂
    exact ⟨_, projectOp_some solve hE h1, ⟨F, rfl, h2⟩, ⟨o.kind, some G⟩, ⟨G, rfl, h4⟩,
      projectOp_some solve (o := ⟨o.kind, some F⟩) rfl h3, projectOp_some solve hE h5⟩
  obtain ⟨ops₁, e1, hR⟩ := mapM_ok_forall₂ _ _ _ step
  have hne₁ : ops₁ ≠ [] := fun h => hM.nonempty (by
    have := hR.length_eq
    rw [h] at this
    exact length_eq_zero_iff.1 this)
  have hcal₁ : ∀ o ∈ ops₁, o.Cal r₁ m := fun o ho => by
    obtain ⟨a, _, h⟩ := forall₂_mem_right hR ho
    exact h.1
  obtain ⟨ops₂, e2, e3, hcal₂, hlen⟩ : ∃ ops₂ : List (Op K), ops₁.mapM (projectOp solve r₂ V₂ W₂) = .ok ops₂ ∧
      M.ops.mapM (projectOp solve r₂ (matMul r₂ V₁ V₂) (matMul r₂ W₁ X)) = .ok ops₂ ∧ (∀ o ∈ ops₂, o.Cal r₂ m) ∧
      ops₂.length = ops₁.length := by
    clear e1 hne₁ hcal₁ step
    generalize M.ops = L at hR
    induction hR with
    | nil => exact ⟨[], rfl, rfl, by simp, rfl⟩
    | cons h _ ih =>
      obtain ⟨ops₂, e2, e3, hc, hl⟩ := ih
      obtain ⟨_, o₂, c2, p1, p2⟩ := h
      refine ⟨o₂ :: ops₂, ?_, ?_, ?_, by simp [hl]⟩
      · rw [mapM_cons, p1, e2]; rfl
      · rw [mapM_cons, p2, e3]; rfl
      · intro o ho
        rcases mem_cons.1 ho with rfl | ho
        · exact c2
        · exact hc o ho
  have hne₂ : ops₂ ≠ [] := fun h => hne₁ (by rw [h] at hlen; exact length_eq_zero_iff.1 hlen.symm)
  obtain ⟨N, c1, c2, -⟩ := construct_set plain l2 ops₁ r₁ m hr₁ hne₁ hcal₁ .none
  obtain ⟨N', d1, -⟩ := construct_set plain l2 ops₂ r₂ m hr₂ hne₂ hcal₂ .none
  refine ⟨N, N', ?_, ?_, ?_⟩
  · rw [model_galerkin_eq, e1]; exact c1
  · rw [model_galerkin_eq, c2, e2]; exact d1
  · rw [model_galerkin_eq, e3]; exact d1

end

/-! ### Examples -/

/-- A linear system with three states; the trial basis of dimension two and its leading column. -/
def cmpE : Mat ℚ := ⟨3, 3, [[1, 2, 3], [4, 5, 6], [7, 8, 9]]⟩
def cmpV : List (List ℚ) := [[1, 0], [0, 1], [0, 0]]
def cmpNoSolve : List (List ℚ) → Mat ℚ → Except Err (Mat ℚ) := fun _ _ => .error .linalg

example : OpKind.lin.Fits cmpE 3 0 ∧ IsMat 3 2 cmpV ∧ gram 2 cmpV cmpV = eye 2 ∧
    OpKind.lin.galerkin cmpNoSolve cmpE 2 2 cmpV cmpV = .ok ⟨2, 2, [[1, 2], [4, 5]]⟩ ∧
    OpKind.lin.galerkin cmpNoSolve ⟨2, 2, [[1, 2], [4, 5]]⟩ 1 1 (leading 1 (eye 2)) (leading 1 (eye 2)) = .ok ⟨1, 1, [[1]]⟩ ∧
    OpKind.lin.galerkin cmpNoSolve cmpE 1 1 (leading 1 cmpV) (leading 1 cmpV) = .ok ⟨1, 1, [[1]]⟩ := by
  refine ⟨⟨by decide +kernel, rfl, rfl⟩, ⟨rfl, by decide +kernel⟩, ?_, ?_, ?_, ?_⟩ <;> decide +kernel

/-- A solver for diagonal systems. -/
def cmpDiag (G : List (List ℚ)) (X : Mat ℚ) : Except Err (Mat ℚ) :=
  .ok ⟨X.nrows, X.ncols, zipWith (fun g row => vsmul g⁻¹ row) (G.zipIdx.map fun p => p.1.getD p.2 0) X.rows⟩

theorem cmpDiag_one (g : ℚ) (hg : g ≠ 0) : SolvesExactly cmpDiag [[g]] 1 := by
  intro X hX h1
  obtain ⟨n, c, rows⟩ := X
  simp only at h1
  subst h1
  obtain ⟨row, rfl⟩ := length_eq_one_iff.1 (show rows.length = 1 from hX.1)
  have hl : row.length = c := hX.2 row (by simp)
  refine ⟨_, rfl, ⟨rfl, by simp [vsmul, hl]⟩, rfl, rfl, ?_⟩
  subst hl
  refine congrArg (· :: []) (ext_getElem (by simp [vadd, vecMat, vsmul]) fun i h1 h2 => ?_)
  simp [vadd, vecMat, vsmul, hg]

theorem cmpDiag_two (g g' : ℚ) (hg : g ≠ 0) (hg' : g' ≠ 0) : SolvesExactly cmpDiag [[g, 0], [0, g']] 2 := by
  intro X hX h1
  obtain ⟨n, c, rows⟩ := X
  simp only at h1
  subst h1
  obtain ⟨x, y, rfl⟩ := length_eq_two.1 (show rows.length = 2 from hX.1)
  have hl : x.length = c := hX.2 x (by simp)
  have hl' : y.length = c := hX.2 y (by simp)
  refine ⟨_, rfl, ⟨rfl, by simp [vsmul, hl, hl']⟩, rfl, rfl, ?_⟩
  simp only [matMul, map_cons, map_nil]
  refine congrArg₂ (fun a b => [a, b]) (ext_getElem (by simp [vadd, vecMat, vsmul, hl, hl']) fun i h1 h2 => ?_)
    (ext_getElem (by simp [vadd, vecMat, vsmul, hl, hl']) fun i h1 h2 => ?_)
  · simp [vadd, vecMat, vsmul, hg]
  · simp [vadd, vecMat, vsmul, hg']

/-- Bases that are not biorthogonal: the two-step and one-step projections use the solver. -/
example : SolvesGram cmpDiag 1 [[1], [1]] [[1], [1]] ∧ SolvesGram cmpDiag 1 [[2]] [[1]] ∧
    OneStep (K := ℚ) 1 1 [[1], [1]] [[1], [1]] [[1]] [[1/2]] ∧
    OpKind.lin.galerkin cmpDiag ⟨2, 2, [[1, 2], [3, 4]]⟩ 1 1 [[1], [1]] [[1], [1]] = .ok ⟨1, 1, [[5]]⟩ ∧
    OpKind.lin.galerkin cmpDiag ⟨2, 2, [[1, 2], [3, 4]]⟩ 1 1 [[2], [2]] [[1/2], [1/2]] = .ok ⟨1, 1, [[5]]⟩ := by
  refine ⟨fun _ => ?_, fun _ => ?_, ⟨rfl, by simp, by decide +kernel⟩, by decide +kernel, by decide +kernel⟩
  · rw [show gram 1 [[1], [1]] [[1], [1]] = ([[2]] : List (List ℚ)) by decide +kernel]; exact cmpDiag_one 2 (by norm_num)
  · rw [show gram 1 [[1]] [[2]] = ([[2]] : List (List ℚ)) by decide +kernel]; exact cmpDiag_one 2 (by norm_num)

/-- **C114.** `X` matters when the first bases are not biorthogonal: with `Wr1 @ Wr2` as test basis the one-step
projection is a different operator. -/
theorem C114_test_basis_matters :
    ∃ (E : Mat ℚ) (V₁ W₁ V₂ W₂ : List (List ℚ)) (solve : List (List ℚ) → Mat ℚ → Except Err (Mat ℚ)) (F G H : Mat ℚ),
      SolvesGram solve 2 V₁ W₁ ∧ SolvesGram solve 1 V₂ W₂ ∧ SolvesGram solve 1 (matMul 1 V₁ V₂) (matMul 1 W₁ W₂) ∧
      OpKind.lin.galerkin solve E 2 2 V₁ W₁ = .ok F ∧ OpKind.lin.galerkin solve F 1 1 V₂ W₂ = .ok G ∧
      OpKind.lin.galerkin solve E 1 1 (matMul 1 V₁ V₂) (matMul 1 W₁ W₂) = .ok H ∧ G ≠ H := by
  refine ⟨⟨2, 2, [[1, 0], [0, 3]]⟩, [[1, 0], [0, 2]], [[1, 0], [0, 2]], [[1], [1]], [[1], [1]], cmpDiag,
    ⟨2, 2, [[1, 0], [0, 3]]⟩, ⟨1, 1, [[2]]⟩, ⟨1, 1, [[13 / 5]]⟩, fun _ => ?_, fun _ => ?_, fun _ => ?_, ?_, ?_, ?_, ?_⟩
  · rw [show gram 2 [[1, 0], [0, 2]] [[1, 0], [0, 2]] = ([[1, 0], [0, 4]] : List (List ℚ)) by decide +kernel]
    exact cmpDiag_two 1 4 (by norm_num) (by norm_num)
  · rw [show gram 1 [[1], [1]] [[1], [1]] = ([[2]] : List (List ℚ)) by decide +kernel]
    exact cmpDiag_one 2 (by norm_num)
  · rw [show gram 1 (matMul 1 [[1, 0], [0, 2]] [[1], [1]]) (matMul 1 [[1, 0], [0, 2]] [[1], [1]]) = ([[5]] : List (List ℚ)) by
      decide +kernel]
    exact cmpDiag_one 5 (by norm_num)
  all_goals decide +kernel

end Opinf
