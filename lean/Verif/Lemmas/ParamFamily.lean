import Verif.Lemmas.ParamFit

/-!
# Parametric models: operators that differ in their entries only
-/

namespace Opinf

open List

variable {K S : Type}

/-- The second operator is the first one with other entries (and, if interpolated, possibly with another
interpolator class). -/
def POp.SameBut : POp K → POp K → Prop
  | .np o, .np o2 => o2.kind = o.kind
  | .aff a, .aff a2 => a2 = { a with entries := a2.entries }
  | .itp t, .itp t2 => t2.kind = t.kind ∧ t2.params = t.params ∧ t2.p = t.p
  | _, _ => False

theorem POp.SameBut.refl (o : POp K) : o.SameBut o := by
  cases o with
  | np o => rfl
  | aff a => rfl
  | itp t => exact ⟨rfl, rfl, rfl⟩

theorem POp.SameBut.trans {o o2 o3 : POp K} (h : o.SameBut o2) (h' : o2.SameBut o3) : o.SameBut o3 := by
  cases o <;> cases o2 <;> first | exact absurd h id | skip
  all_goals cases o3 <;> first | exact absurd h' id | skip
  · next o o2 o3 =>
    have h1 : o2.kind = o.kind := h
    have h2 : o3.kind = o2.kind := h'
    exact h2.trans h1
  · next a a2 a3 =>
    have h1 : a2 = { a with entries := a2.entries } := h
    have h2 : a3 = { a2 with entries := a3.entries } := h'
    show a3 = { a with entries := a3.entries }
    rw [h1] at h2
    exact h2
  · exact ⟨h'.1.trans h.1, h'.2.1.trans h.2.1, h'.2.2.trans h.2.2⟩

theorem POp.SameBut.symm {o o2 : POp K} (h : o.SameBut o2) : o2.SameBut o := by
  cases o <;> cases o2 <;> first | exact absurd h id | skip
  · next o o2 =>
    have h : o2.kind = o.kind := h
    exact h.symm
  · next a a2 =>
    have h : a2 = { a with entries := a2.entries } := h
    show a = { a2 with entries := a.entries }
    rw [h]
  · exact ⟨h.1.symm, h.2.1.symm, h.2.2.symm⟩

theorem POp.SameBut.kind {o o2 : POp K} (h : o.SameBut o2) : o2.kind = o.kind := by
  cases o <;> cases o2 <;> first | exact absurd h id | skip
  · exact h
  · next a a2 =>
    have h : a2 = { a with entries := a2.entries } := h
    show a2.kind = a.kind
    rw [h]
  · exact h.1

theorem POp.SameBut.dim {o o2 : POp K} (h : o.SameBut o2) (n r m : Nat) : o2.dim n r m = o.dim n r m := by
  cases o <;> cases o2 <;> first | exact absurd h id | skip
  · next o o2 =>
    have h : o2.kind = o.kind := h
    simp only [POp.dim, h]
  · next a a2 =>
    have h : a2 = { a with entries := a2.entries } := h
    simp only [POp.dim]
    rw [h]; rfl
  · simp only [POp.dim, h.1]

section

variable [LinearOrder K]

omit [LinearOrder K] in
theorem POp.SameBut.ready {ps : List (Par K)} {d : Nat} {o o2 : POp K}
    (h : o.SameBut o2) (hr : o.Ready ps d) : o2.Ready ps d := by
  cases o <;> cases o2 <;> first | exact absurd h id | skip
  · trivial
  · next a a2 =>
    have h : a2 = { a with entries := a2.entries } := h
    rw [h]; exact hr
  · next t t2 =>
    obtain ⟨-, h2, h3⟩ := h
    obtain ⟨P, p1, p2, p3⟩ := hr
    exact ⟨P, p1, h2.trans p2, h3.trans p3⟩

omit [LinearOrder K] in
theorem POp.SameBut.block [CommSemiring K] {o o2 : POp K} (h : o.SameBut o2) (r m : Nat)
    (data : List (PSet K)) : o2.block r m data = o.block r m data := by
  cases o <;> cases o2 <;> first | exact absurd h id | skip
  · next o o2 =>
    have h : o2.kind = o.kind := h
    simp only [POp.block, h]
  · next a a2 =>
    have h : a2 = { a with entries := a2.entries } := h
    simp only [POp.block]
    rw [h]; rfl
  · simp only [POp.block, h.1]

/-- Setting the entries changes nothing but the entries (and the interpolator class). -/
theorem POp.setBlock_sameBut [AddMonoid K] (lib : ItpLib K) (o o' : POp K) (B : Mat K)
    (h : o.setBlock lib B = (o', .ok ())) : o.SameBut o' := by
  cases o with
  | np o =>
    simp only [POp.setBlock] at h
    split at h
    · simp at h
    · simp only [Prod.mk.injEq, and_true] at h
      subst h; rfl
  | aff a =>
    simp only [POp.setBlock] at h
    split at h
    · simp at h
    · next a' ha =>
      simp only [Prod.mk.injEq, and_true] at h
      subst h
      unfold Affine.setEntries at ha
      split at ha
      · cases ha
      · cases ha; rfl
  | itp t =>
    simp only [POp.setBlock, Prod.mk.injEq] at h
    obtain ⟨rfl, h2⟩ := h
    rw [Interp.setEntries] at h2 ⊢
    cases hp : t.params with
    | none => rw [hp] at h2; simp at h2
    | some P =>
      rw [hp] at h2
      simp only at h2 ⊢
      split at h2
      · simp at h2
      · next As _ =>
        simp only [Interp.setInterpolator] at h2 ⊢
        split at h2
        · simp at h2
        · exact ⟨rfl, hp.symm ▸ rfl, rfl⟩

/-- Setting the entries keeps what is assumed of an operator to infer. -/
theorem POp.setBlock_learnable [AddMonoid K] (lib : ItpLib K) (ps : List (Par K)) (o o' : POp K) (B : Mat K)
    (h : o.setBlock lib B = (o', .ok ())) (hl : o.Learnable lib ps) : o'.Learnable lib ps := by
  have hs := POp.setBlock_sameBut lib o o' B h
  cases o <;> cases o' <;> first | exact absurd hs id | skip
  · trivial
  · next a a2 =>
    have hs : a2 = { a with entries := a2.entries } := hs
    rw [hs]; exact hl
  · next t t2 =>
    obtain ⟨l1, l2, l3⟩ := hl
    simp only [POp.setBlock, Prod.mk.injEq, POp.itp.injEq] at h
    obtain ⟨rfl, h2⟩ := h
    rw [Interp.setEntries] at h2 ⊢
    cases hp : t.params with
    | none => rw [hp] at h2; simp at h2
    | some P =>
      rw [hp] at h2
      simp only at h2 ⊢
      split at h2
      · simp at h2
      · next As _ =>
        simp only [Interp.setInterpolator] at h2 ⊢
        split at h2
        · simp at h2
        · refine ⟨l1, ?_, fun h => by cases h⟩
          intro c hcc
          cases hcc
          cases hc : t.cls with
          | some c => exact l2 c (by rw [hc]; rfl)
          | none =>
            cases P with
            | one xs => exact (l3 hc).1
            | two p rows => exact (l3 hc).2

/-- The data block of an operator and what the learned entries do, for all operators that differ in their
entries (or interpolator class) only. -/
theorem POp.learns_family [Field K] (lib : ItpLib K) (o : POp K) (r m : Nat) (hr : 0 < r) (hasIn : Bool)
    (hi : o.kind.hasInputs = true → hasIn = true) (data : List (PSet K)) (hne : data ≠ [])
    (hd : ∀ x ∈ data, x.OK r m hasIn) (hl : o.Learnable lib (data.map PSet.mu)) (d : Nat)
    (hdim : ∀ mu ∈ data.map PSet.mu, mu.dim = d) (hready : o.Ready (data.map PSet.mu) d) :
    ∃ cols, o.block r m data = .ok cols ∧ ∀ o2, o.SameBut o2 →
      o2.Learnable lib (data.map PSet.mu) →
      o2.LearnsWith lib r m data.length (data.map PSet.mu) (dataSamples (data.map PSet.triple)) cols := by
  obtain ⟨cols, h1, -⟩ := POp.learns lib o r m hr hasIn hi data hne hd hl d hdim hready
  refine ⟨cols, h1, fun o2 h hl2 => ?_⟩
  obtain ⟨cols2, k1, k2⟩ := POp.learns lib o2 r m hr hasIn (by rw [h.kind]; exact hi) data hne hd
    hl2 d hdim (h.ready hready)
  rw [h.block, h1] at k1
  cases k1
  exact k2

end

/-! ### The matrix of entries -/

/-- The entries of an operator: one matrix, or one for each term of an affine expansion, or one for each
training parameter of an interpolation. -/
def POp.mats : POp K → List (Mat K)
  | .np o => o.entries.toList
  | .aff a => a.entries.getD []
  | .itp t => t.entries.getD []

/-- The `i`-th row of the entries of an operator, the matrices side by side. -/
def POp.entryRow (o : POp K) (i : Nat) : List K := o.mats.flatMap fun A => A.rows.getD i []

/-- The number of matrices an operator expects. -/
def POp.Expects (n : Nat) : POp K → Prop
  | .np _ => True
  | .aff a => 0 < a.nterms
  | .itp t => 0 < n ∧ ∃ P, t.params = some P ∧ P.length = n

theorem POp.SameBut.expects {n : Nat} {o o2 : POp K} (h : o.SameBut o2) (he : o.Expects n) :
    o2.Expects n := by
  cases o <;> cases o2 <;> first | exact absurd h id | skip
  · trivial
  · next a a2 =>
    have h : a2 = { a with entries := a2.entries } := h
    rw [h]; exact he
  · next t t2 =>
    obtain ⟨h0, P, h1, h2⟩ := he
    exact ⟨h0, P, h.2.1.trans h1, h2⟩

theorem flatMap_chunks (d : Nat) (n : Nat) (row : List K) (h : row.length = n * d) :
    ((range n).flatMap fun i => (row.drop (i * d)).take d) = row := by
  have key : ∀ k, k ≤ n → ((range k).flatMap fun i => (row.drop (i * d)).take d) = row.take (k * d) := by
    intro k
    induction k with
    | zero => simp
    | succ k ih =>
      intro hk
      rw [range_succ, flatMap_append, ih (by omega), flatMap_singleton, Nat.succ_mul, take_add]
  rw [key n le_rfl, ← h, take_length]

theorem entryRow_blocks (d n r : Nat) (B : Mat K) (hB : B.WF) (hBr : B.nrows = r) (hBc : B.ncols = n * d)
    (i : Nat) (hi : i < r) :
    (((range n).map (blockAt B d)).flatMap fun A => A.rows.getD i []) = B.rows.getD i [] := by
  have hir : i < B.rows.length := by rw [hB.1, hBr]; exact hi
  rw [flatMap_map, getD_eq_getElem _ _ hir]
  conv_rhs => rw [← flatMap_chunks d n B.rows[i] (by rw [hB.2 _ (getElem_mem _), hBc])]
  apply flatMap_congr
  intro a _
  rw [getD_eq_getElem _ _ (by simp [blockAt]; exact hir)]
  simp [blockAt]

/-- An accepted block is what the operator's entries are afterwards. -/
theorem POp.setBlock_rows [Field K] [LinearOrder K] (lib : ItpLib K) (n r m : Nat) (hr : 0 < r)
    (o o' : POp K) (he : o.Expects n) (B : Mat K) (hB : B.WF) (hBr : B.nrows = r)
    (hBc : B.ncols = o.dim n r m) (h : o.setBlock lib B = (o', .ok ())) (i : Nat) (hi : i < r) :
    o'.entryRow i = B.rows.getD i [] := by
  cases o with
  | np o =>
    have hF : o.kind.Fits B r m := ⟨hB, hBr, hBc⟩
    simp only [POp.setBlock, setEntries_fits o.kind B r m hr hF, Prod.mk.injEq, and_true] at h
    subst h
    simp [POp.entryRow, POp.mats]
  | aff a =>
    have hn : 0 < a.nterms := he
    have hBc' : B.ncols = a.nterms * a.kind.dim r m := by
      rw [hBc]; simp only [POp.dim, Affine.dim]
    simp only [POp.setBlock, Affine.setEntries,
      parseEntries_block a.kind r m a.nterms hr hn B hB hBr hBc', Prod.mk.injEq, and_true] at h
    subst h
    exact entryRow_blocks _ _ r B hB hBr hBc' i hi
  | itp t =>
    obtain ⟨hn, P, hP, hPl⟩ := he
    have hBc' : B.ncols = P.length * t.kind.dim r m := by
      rw [hBc, hPl]; simp only [POp.dim, interpDim]
    simp only [POp.setBlock, Prod.mk.injEq] at h
    obtain ⟨rfl, h2⟩ := h
    rw [POp.entryRow]
    simp only [Interp.setEntries, hP, parseEntries_block t.kind r m P.length hr (by omega) B hB hBr hBc',
      Interp.setInterpolator] at h2 ⊢
    split at h2
    · simp at h2
    · exact entryRow_blocks _ _ r B hB hBr hBc' i hi

end Opinf
