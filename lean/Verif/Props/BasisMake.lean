import Verif.Props.Basis

/-!
# C42: what the constructor of `LinearBasis` accepts, and `fit_compress`
-/

namespace Opinf

open List

variable {K : Type}

/-- How the `weights` argument acts on a vector. -/
def WArg.act [Semiring K] : WArg K → List K → List K
  | .one w, x => zipWith (· * ·) w x
  | .two A, x => matVec A.rows x
  | _, x => x

/-- The `weights` argument suits vectors of length `n`. -/
def WArg.Suits : WArg K → Nat → Prop
  | .none, _ => True
  | .one w, n => w.length = n
  | .two A, n => A.nrows = n ∧ A.ncols = n
  | .other, _ => False

section

variable [CommSemiring K] [DecidableEq K]

omit [CommSemiring K] [DecidableEq K] in
theorem suits_fit {W : WArg K} {n : Nat} (hA : ∀ A, W = .two A → A.WF) (h : W.Suits n) :
    ∃ W', W.toWeights = .ok W' ∧ weightsFit W' n := by
  cases W with
  | none => exact ⟨_, rfl, trivial⟩
  | one w => exact ⟨_, rfl, h⟩
  | two A => exact ⟨_, rfl, h.1, h.2, (hA A rfl).1, (hA A rfl).2⟩
  | other => exact h.elim

/-- **C42** (constructor). `LinearBasis(entries, weights)` of a basis with at least one vector succeeds exactly for weights
that are absent, a vector of length `n` or an `n × n` matrix; with `check_orthogonality=False` every vector and matrix is
taken. Everything else raises ValueError. -/
theorem C42_make_iff (V : Cols K) (hV : V.WF) (hne : V.cols ≠ []) (W : WArg K) (hA : ∀ A, W = .two A → A.WF)
    (check : Bool) (name : Option String) :
    ((∃ b w, LinB.make V W check name = .ok (b, w)) ↔ W ≠ .other ∧ (check = true → W.Suits V.n)) ∧
      ∀ e, LinB.make V W check name = .error e → e = .value := by
  obtain ⟨c, cs, hcs⟩ := exists_cons_of_ne_nil hne
  have hc : c.length = V.n := hV c (by rw [hcs]; simp)
  have good : check = true → W.Suits V.n → ∃ b w, LinB.make V W check name = .ok (b, w) := by
    intro h1 h2
    obtain ⟨W', e1, e2⟩ := suits_fit hA h2
    obtain ⟨b, w, e, -⟩ := C42_constructor V hV W W' e1 e2 name
    rw [h1]
    exact ⟨b, w, e⟩
  have bad : check = true → ¬ W.Suits V.n → LinB.make V W check name = .error .value := by
    intro h1 h2
    subst h1
    cases W with
    | none => exact absurd trivial h2
    | other => rfl
    | one w =>
      have h2 : w.length ≠ V.n := h2
      have : weightCol (some (.diag w)) c = .error .value := by
        simp only [weightCol, applyWeights, bind, Except.bind, Snap.len, hc]
        rw [if_neg (fun e => h2 e.symm)]
      simp only [LinB.make, WArg.toWeights, LinB.init, orthWarn, basisGram, hcs, mapM_cons, bind, Except.bind, this, if_true,
        Except.map]
    | two A =>
      have hAw := hA A rfl
      by_cases h3 : A.ncols = V.n
      · have h4 : A.nrows ≠ V.n := fun e => h2 ⟨e, h3⟩
        have h5 : ∀ x ∈ V.cols, weightCol (some (.full A)) x = .ok (matVec A.rows x) := by
          intro x hx
          simp only [weightCol, applyWeights, matSnap, bind, Except.bind, Snap.len, hV x hx, h3]
          simp
        have h6 : V.cols.mapM (weightCol (some (.full A))) = .ok (V.cols.map (matVec A.rows)) := mapM_ok_of h5
        have h7 : (V.cols.map (matVec A.rows)).all (fun c => c.length == V.n) = false := by
          rw [all_eq_false]
          refine ⟨matVec A.rows c, mem_map_of_mem (by rw [hcs]; simp), ?_⟩
          simp [hAw.1, h4]
        simp only [LinB.make, WArg.toWeights, LinB.init, orthWarn, basisGram, h6, bind, Except.bind, if_true,
          Except.map, h7]
        rfl
      · have : weightCol (some (.full A)) c = .error .value := by
          simp only [weightCol, applyWeights, matSnap, bind, Except.bind, Snap.len, hc]
          rw [if_pos (fun e => h3 e.symm)]
        simp only [LinB.make, WArg.toWeights, LinB.init, orthWarn, basisGram, hcs, mapM_cons, bind, Except.bind, this, if_true,
          Except.map]
  have free : check = false → W ≠ .other → ∃ b w, LinB.make V W check name = .ok (b, w) := by
    intro h1 h2
    subst h1
    cases W with
    | other => exact absurd rfl h2
    | _ => exact ⟨_, _, rfl⟩
  constructor
  · constructor
    · rintro ⟨b, w, h⟩
      refine ⟨?_, fun h1 => ?_⟩
      · rintro rfl
        cases h
      · by_contra h2
        rw [bad h1 h2] at h
        cases h
    · rintro ⟨h1, h2⟩
      cases check with
      | true => exact good rfl (h2 rfl)
      | false => exact free rfl h1
  · intro e he
    cases hck : check with
    | true =>
      by_cases h2 : W.Suits V.n
      · obtain ⟨b, w, h⟩ := good hck h2
        rw [h] at he
        cases he
      · rw [bad hck h2] at he
        cases he
        rfl
    | false =>
      by_cases h2 : W = .other
      · subst h2
        cases he
        rfl
      · obtain ⟨b, w, h⟩ := free hck h2
        rw [h] at he
        cases he

/-- **C42** (weights are used as given). The coordinates of a state `x` in the new basis are the inner products of the basis
vectors with the weights applied to `x`. -/
theorem C42_make_compress (V : Cols K) (hV : V.WF) (W : WArg K) (hA : ∀ A, W = .two A → A.WF) (hW : W.Suits V.n)
    (check : Bool) (name : Option String) (b : LinB K) (w : Bool) (h : LinB.make V W check name = .ok (b, w))
    (x : List K) (hx : x.length = V.n) : b.compress (.vec x) = .ok (.vec (V.cols.map fun v => dot v (W.act x))) := by
  have hb : ∃ W', W.toWeights = .ok W' ∧ b = ⟨name, some V.n, some V.cols.length, some V, W'⟩ := by
    cases hW' : W.toWeights with
    | error e => simp only [LinB.make, hW', bind, Except.bind] at h; cases h
    | ok W' =>
      simp only [LinB.make, hW', bind, Except.bind, LinB.init] at h
      refine ⟨W', rfl, ?_⟩
      split at h
      · cases h
      · cases h
        rfl
  obtain ⟨W', h1, rfl⟩ := hb
  have key : applyWeights W' (.vec x) = .ok (.vec (W.act x)) ∧ (W.act x).length = V.n := by
    cases W with
    | none => cases h1; exact ⟨rfl, hx⟩
    | other => exact hW.elim
    | one w =>
      cases h1
      have hw : w.length = V.n := hW
      obtain ⟨Z, e1, e2, e3⟩ := applyWeights_ok (W := some (.diag w)) (n := V.n) hw (Y := .vec x) (c := none)
        ⟨trivial, hx, rfl⟩
      refine ⟨?_, by simp [WArg.act, hw, hx]⟩
      rw [e1]
      cases Z with
      | vec xs =>
        have := e3 0 (by simp [Snap.width])
        simp only [Snap.column] at this
        rw [this]
        rfl
      | mat k rows => have := e2.cols; simp [Snap.cols] at this
    | two A =>
      cases h1
      obtain ⟨h3, h4⟩ : A.nrows = V.n ∧ A.ncols = V.n := hW
      refine ⟨?_, by simp [WArg.act, (hA A rfl).1, h3]⟩
      simp only [applyWeights, matSnap, Snap.len, hx, h4]
      simp [WArg.act]
  simp only [LinB.compress, LinB.need, bind, Except.bind, key.1, matSnap, Snap.len, key.2]
  simp [matVec]

omit [CommSemiring K] [DecidableEq K] in
/-- **C42** (`fit_compress`). `fit_compress(states)` leaves the basis as `fit(states)` does and returns what
`compress(states)` returns afterwards; it raises what `fit` raises. -/
theorem C42_fit_compress {S : Type} (I : BasI K S) (s : S) (Y : Snap K) :
    (I.fitCompress s Y).1 = (I.fit s Y).1 ∧
      ((I.fit s Y).2 = .ok () → (I.fitCompress s Y).2 = I.compress (I.fit s Y).1 Y) ∧
      ∀ e, (I.fit s Y).2 = .error e → (I.fitCompress s Y).2 = .error e := by
  rw [BasI.fitCompress]
  rcases hf : I.fit s Y with ⟨s', _ | ⟨⟨⟩⟩⟩
  · exact ⟨rfl, by simp, by simp⟩
  · exact ⟨rfl, by simp, by simp⟩

end

/-! ### Examples -/

/-- One vector of length two with dense weights; the orthogonality check warns. -/
example : LinB.make (K := ℚ) ⟨2, [[1, 0]]⟩ (.two ⟨2, 2, [[2, 1], [0, 3]]⟩) true none =
    .ok (⟨none, some 2, some 1, some ⟨2, [[1, 0]]⟩, some (.full ⟨2, 2, [[2, 1], [0, 3]]⟩)⟩, true) := by decide +kernel

example : LinB.make (K := ℚ) ⟨2, [[1, 0]]⟩ (.two ⟨1, 2, [[2, 1]]⟩) true none = .error .value ∧
    LinB.make (K := ℚ) ⟨2, [[1, 0]]⟩ (.one [1]) true none = .error .value ∧
    (LinB.make (K := ℚ) ⟨2, [[1, 0]]⟩ (.one [1]) false none).isOk = true := by
  refine ⟨?_, ?_, ?_⟩ <;> decide +kernel

example : (⟨none, some 2, some 1, some ⟨2, [[1, 0]]⟩, some (.full ⟨2, 2, [[2, 1], [0, 3]]⟩)⟩ : LinB ℚ).compress (.vec [5, 7]) =
    .ok (.vec [17]) :=
  C42_make_compress ⟨2, [[1, 0]]⟩ (by simp [Cols.WF]) (.two ⟨2, 2, [[2, 1], [0, 3]]⟩) (by rintro A ⟨⟩; decide) ⟨rfl, rfl⟩ true none
    _ true (by decide +kernel) [5, 7] rfl |>.trans (by decide +kernel)

end Opinf
