import Verif.Props.Kron

/-!
# C03: applying an operator is multiplying its entries with its data block
-/

namespace Opinf

open List

variable {K : Type*}

/-! ## Specification vocabulary -/

/-- The snapshots an argument stands for when the state (or input) dimension is `n`: a matrix is
the list of its columns; a vector is one snapshot, unless `n = 1`, when it is a row of
one-dimensional snapshots; a scalar is a single one-dimensional snapshot. -/
def Arg.snaps (n : Nat) : Arg K → List (List K)
  | .scalar x => [[x]]
  | .vec xs => if n = 1 then xs.map ([·]) else [xs]
  | .mat _ cols => cols

/-- The argument is a valid representation of `k` snapshots of dimension `n`. -/
def Arg.Shaped (n k : Nat) : Arg K → Prop
  | .scalar _ => n = 1 ∧ k = 1
  | .vec xs => (n = 1 ∧ xs.length = k) ∨ (n ≠ 1 ∧ xs.length = n ∧ k = 1)
  | .mat n' cols => n' = n ∧ cols.length = k ∧ ∀ c ∈ cols, c.length = n

/-- Is the argument two-dimensional? -/
def Arg.isMat : Arg K → Bool
  | .mat .. => true
  | _ => false

/-- State and input represent the snapshots consistently: if exactly one of them is
two-dimensional, the other one has dimension 1 (so that its vector form is a row). -/
def Compat (r m : Nat) (s u : Arg K) : Prop :=
  (s.isMat = true → u.isMat = false → m = 1) ∧ (u.isMat = true → s.isMat = false → r = 1)

/-! ## Helper lemmas -/

theorem zipWith_left_eq_map {α β γ : Type*} (f : α → γ) (S : List α) (U : List β)
    (h : S.length = U.length) : zipWith (fun q _ => f q) S U = S.map f := by
  induction S generalizing U with
  | nil => simp
  | cons a S ih =>
    cases U with
    | nil => simp at h
    | cons b U => simp only [zipWith_cons_cons, map_cons]; rw [ih U (by simpa using h)]

theorem zipWith_right_eq_map {α β γ : Type*} (f : β → γ) (S : List α) (U : List β)
    (h : S.length = U.length) : zipWith (fun _ u => f u) S U = U.map f := by
  induction S generalizing U with
  | nil => cases U with
    | nil => rfl
    | cons b U => simp at h
  | cons a S ih =>
    cases U with
    | nil => simp at h
    | cons b U => simp only [zipWith_cons_cons, map_cons]; rw [ih U (by simpa using h)]

theorem Arg.Shaped.length_snaps {n k : Nat} {s : Arg K} (h : s.Shaped n k) :
    (s.snaps n).length = k := by
  cases s with
  | scalar x => simp only [Arg.Shaped] at h; simp [Arg.snaps, h.2]
  | vec xs =>
    simp only [Arg.Shaped] at h
    rcases h with ⟨h1, h2⟩ | ⟨h1, h2, h3⟩
    · simp [Arg.snaps, h1, h2]
    · simp [Arg.snaps, h1, h3]
  | mat n' cols => simp only [Arg.Shaped] at h; simp [Arg.snaps, h.2.1]

theorem Arg.Shaped.mem_snaps {n k : Nat} {s : Arg K} (h : s.Shaped n k) :
    ∀ q ∈ s.snaps n, q.length = n := by
  cases s with
  | scalar x => simp only [Arg.Shaped] at h; simp [Arg.snaps, h.1]
  | vec xs =>
    simp only [Arg.Shaped] at h
    rcases h with ⟨h1, h2⟩ | ⟨h1, h2, h3⟩
    · subst h1
      simp [Arg.snaps]
    · simp [Arg.snaps, h1, h2]
  | mat n' cols => simp only [Arg.Shaped] at h; simpa [Arg.snaps] using h.2.2

theorem emap_snaps_one {k : Nat} {s : Arg K} (h : s.Shaped 1 k) (f : K → K) :
    (s.emap f).snaps 1 = (s.snaps 1).map (·.map f) ∧ (s.emap f).Shaped 1 k := by
  cases s with
  | scalar x => exact ⟨rfl, h⟩
  | vec xs =>
    simp only [Arg.Shaped] at h
    refine ⟨by simp [Arg.emap, Arg.snaps], ?_⟩
    left
    rcases h with ⟨-, h2⟩ | ⟨h1, -⟩
    · exact ⟨rfl, by simpa using h2⟩
    · exact absurd rfl h1
  | mat n' cols =>
    simp only [Arg.Shaped] at h
    refine ⟨rfl, h.1, by simpa using h.2.1, ?_⟩
    intro c hc
    simp only [mem_map] at hc
    obtain ⟨c', hc', rfl⟩ := hc
    simpa using h.2.2 c' hc'

theorem rows_one_one {E : Mat K} (hE : E.WF) (h1 : E.nrows = 1) (h2 : E.ncols = 1) :
    ∃ e, E.rows = [[e]] := by
  obtain ⟨row, hr⟩ := length_eq_one_iff.mp (hE.1.trans h1)
  obtain ⟨e, he⟩ := length_eq_one_iff.mp ((hE.2 row (by rw [hr]; simp)).trans h2)
  exact ⟨e, by rw [hr, he]⟩

/-- A matrix product with a representation whose dimension is not 1, or a matrix. -/
theorem matArg_spec [Semiring K] {r n k : Nat} (E : Mat K) (hE : E.WF) (hr : E.nrows = r)
    (hc : E.ncols = n) (hr1 : r ≠ 1) (s : Arg K) (hs : s.Shaped n k) (hn : n ≠ 1 ∨ s.isMat = true) :
    ∃ out, matArg E s = .ok out ∧ out.snaps r = (s.snaps n).map (matVec E.rows) ∧
      out.Shaped r k := by
  cases s with
  | scalar x =>
    simp only [Arg.Shaped] at hs
    rcases hn with h | h
    · exact absurd hs.1 h
    · simp [Arg.isMat] at h
  | vec xs =>
    have hn1 : n ≠ 1 := by
      rcases hn with h | h
      · exact h
      · simp [Arg.isMat] at h
    simp only [Arg.Shaped] at hs
    rcases hs with ⟨h1, -⟩ | ⟨-, h2, h3⟩
    · exact absurd h1 hn1
    · refine ⟨_, by simp only [matArg, hc, h2, if_true]; rfl, ?_, ?_⟩
      · simp [Arg.snaps, hr1, hn1]
      · right; exact ⟨hr1, by rw [length_matVec, hE.1, hr], h3⟩
  | mat n' cols =>
    simp only [Arg.Shaped] at hs
    refine ⟨.mat _ _, by simp only [matArg, hc, hs.1, if_true]; rfl, rfl, hr,
      by simpa [Arg.snaps] using hs.2.1, ?_⟩
    intro c hcc
    simp only [mem_map] at hcc
    obtain ⟨c', -, rfl⟩ := hcc
    rw [length_matVec, hE.1, hr]

theorem bmul_spec [Mul K] {k : Nat} (f : K → K → K) {u s : Arg K} (hu : u.Shaped 1 k)
    (hs : s.Shaped 1 k) :
    ∃ out, bmul f u s = .ok out ∧
      out.snaps 1 = zipWith (fun q v => zipWith f v q) (s.snaps 1) (u.snaps 1) ∧
      out.Shaped 1 k := by
  have one : ∀ c : List K, c.length = 1 → ∃ x, c = [x] := fun c h => length_eq_one_iff.mp h
  cases u with
  | scalar x =>
    simp only [Arg.Shaped, true_and] at hu
    subst hu
    refine ⟨_, by cases s <;> rfl, ?_, (emap_snaps_one hs (f x)).2⟩
    rw [(emap_snaps_one hs (f x)).1]
    have hl := hs.length_snaps
    have hm := hs.mem_snaps
    generalize s.snaps 1 = S at hl hm
    obtain ⟨q, rfl⟩ := length_eq_one_iff.mp hl
    obtain ⟨y, rfl⟩ := one q (hm q (by simp))
    simp [Arg.snaps]
  | vec xs =>
    have hx : xs.length = k := by
      rcases hu with ⟨-, h⟩ | ⟨h, -⟩
      · exact h
      · exact absurd rfl h
    cases s with
    | scalar y =>
      simp only [Arg.Shaped, true_and] at hs
      subst hs
      obtain ⟨x, rfl⟩ := length_eq_one_iff.mp hx
      refine ⟨_, rfl, by simp [Arg.emap, Arg.snaps], ?_⟩
      left; simp
    | vec ys =>
      have hy : ys.length = k := by
        rcases hs with ⟨-, h⟩ | ⟨h, -⟩
        · exact h
        · exact absurd rfl h
      refine ⟨_, by simp only [bmul, hx, hy, if_true]; rfl, ?_, ?_⟩
      · simp only [Arg.snaps, if_true, zipWith_map, map_zipWith, zipWith_cons_cons, zipWith_nil_left]
        rw [zipWith_comm]
      · left; simp [hx, hy]
    | mat n cols =>
      obtain ⟨h1, h2, h3⟩ := hs
      refine ⟨.mat _ _, by simp only [bmul, hx, h2, if_true]; rfl, ?_, h1, ?_, ?_⟩
      · simp only [Arg.snaps, if_true]
        rw [zipWith_map_right]
        clear hu hx h1 h2
        induction xs generalizing cols with
        | nil => simp
        | cons x xs ih =>
          cases cols with
          | nil => simp
          | cons c cols =>
            obtain ⟨y, rfl⟩ := one c (h3 c mem_cons_self)
            simp only [zipWith_cons_cons]
            rw [ih cols (fun c hc => h3 c (mem_cons_of_mem _ hc))]
            simp
      · simp [hx, h2]
      · intro c hc
        rw [mem_iff_getElem] at hc
        obtain ⟨i, hi, rfl⟩ := hc
        rw [getElem_zipWith, length_map]
        exact h3 _ (getElem_mem _)
  | mat n cols =>
    obtain ⟨h1, h2, h3⟩ := hu
    cases s with
    | scalar y =>
      simp only [Arg.Shaped, true_and] at hs
      subst hs
      obtain ⟨c, rfl⟩ := length_eq_one_iff.mp h2
      obtain ⟨x, rfl⟩ := one c (h3 c (by simp))
      refine ⟨_, rfl, by simp [Arg.emap, Arg.snaps], h1, by simp, by simp⟩
    | vec ys =>
      have hy : ys.length = k := by
        rcases hs with ⟨-, h⟩ | ⟨h, -⟩
        · exact h
        · exact absurd rfl h
      refine ⟨.mat _ _, by simp only [bmul, hy, h2, if_true]; rfl, ?_, h1, ?_, ?_⟩
      · simp only [Arg.snaps, if_true]
        rw [zipWith_map_left]
        clear hs hy h1 h2
        induction ys generalizing cols with
        | nil => simp
        | cons x xs ih =>
          cases cols with
          | nil => simp
          | cons c cols =>
            obtain ⟨y, rfl⟩ := one c (h3 c mem_cons_self)
            simp only [zipWith_cons_cons]
            rw [ih cols (fun c hc => h3 c (mem_cons_of_mem _ hc))]
            simp
      · simp [hy, h2]
      · intro c hc
        rw [mem_iff_getElem] at hc
        obtain ⟨i, hi, rfl⟩ := hc
        rw [getElem_zipWith, length_map]
        exact h3 _ (getElem_mem _)
    | mat n' cols' =>
      obtain ⟨h1', h2', h3'⟩ := hs
      refine ⟨.mat _ _, by simp only [bmul, h1, h1', h2, h2', and_self, if_true]; rfl, ?_, rfl, ?_, ?_⟩
      · simp only [Arg.snaps]
        rw [zipWith_comm]
      · simp [h2, h2']
      · intro c hc
        rw [mem_iff_getElem] at hc
        obtain ⟨i, hi, rfl⟩ := hc
        rw [getElem_zipWith, length_zipWith, h3 _ (getElem_mem _), h3' _ (getElem_mem _)]
        rfl

theorem ckron_one [CommSemiring K] (k : Kind) (x : K) : k.ckron [x] = [x ^ k.deg] := by
  cases k
  · simp [Kind.ckron, ckron2, Kind.deg]; ring
  · simp [Kind.ckron, ckron2, ckron3, Kind.deg]; ring
  · simp [Kind.ckron, ckron2, ckron3, ckron4, Kind.deg]; ring

theorem dataCol_length [CommSemiring K] (o : OpKind) (q u : List K) :
    (o.dataCol q u).length = o.dim q.length u.length := by
  cases o with
  | const => rfl
  | lin => rfl
  | kron k =>
    simp only [OpKind.dataCol, OpKind.dim]
    rw [ckron_eq, length_map, dim_eq_length]
  | inp => rfl
  | stateInp =>
    simp only [OpKind.dataCol, OpKind.dim, length_kron]
    ring

/-! ## C03 -/

/-- **C03, shape of the data block.** One column per snapshot, each with exactly
`operator_dimension(r, m)` entries. -/
theorem C03_datablock_shape [CommSemiring K] (o : OpKind) (r m : Nat) (states inputs : List (List K))
    (hs : ∀ q ∈ states, q.length = r) (hu : ∀ u ∈ inputs, u.length = m)
    (hk : inputs.length = states.length) :
    (o.datablock states inputs).length = states.length ∧
      ∀ c ∈ o.datablock states inputs, c.length = o.dim r m := by
  refine ⟨by simp [OpKind.datablock, hk], ?_⟩
  intro c hc
  rw [OpKind.datablock, mem_iff_getElem] at hc
  obtain ⟨i, hi, rfl⟩ := hc
  rw [getElem_zipWith, dataCol_length, hs _ (getElem_mem _), hu _ (getElem_mem _)]

theorem applyConst_spec [CommSemiring K] (E : Mat K) (hE : E.WF) (r k : Nat) (hr : E.nrows = r)
    (hc : E.ncols = 1) (s : Arg K) (hs : s.Shaped r k) :
    (applyConst E s).snaps r = (s.snaps r).map (fun _ => matVec E.rows [1]) ∧
      (applyConst E s).Shaped r k := by
  have hcol : matVec E.rows [1] = E.col0 := by
    apply map_congr_left
    intro row hrow
    obtain ⟨e, rfl⟩ := length_eq_one_iff.mp ((hE.2 row hrow).trans hc)
    simp [dot]
  rw [hcol]
  by_cases h1 : E.nrows = 1
  · have hr1 : r = 1 := by omega
    subst hr1
    obtain ⟨e, he⟩ := rows_one_one hE h1 hc
    have h00 : E.e00 = e := by simp [Mat.e00, he]
    have hc0 : E.col0 = [e] := by simp [Mat.col0, he]
    have hmap : applyConst E s = s.emap (fun _ => e) := by
      cases s <;> simp [applyConst, h1, h00, Arg.emap]
    rw [hmap]
    obtain ⟨h2, h3⟩ := emap_snaps_one hs (fun _ => e)
    refine ⟨?_, h3⟩
    rw [h2, hc0]
    apply map_congr_left
    intro q hq
    obtain ⟨x, rfl⟩ := length_eq_one_iff.mp (hs.mem_snaps q hq)
    rfl
  · have hr1 : r ≠ 1 := by omega
    have hlen : E.col0.length = r := by simp [Mat.col0, hE.1, hr]
    cases s with
    | scalar x => exact absurd hs.1 hr1
    | vec xs =>
      rcases hs with ⟨h, -⟩ | ⟨-, h2, h3⟩
      · exact absurd h hr1
      · refine ⟨by simp [applyConst, h1, Arg.snaps, hr1], ?_⟩
        simp only [applyConst, h1, if_false]
        right; exact ⟨hr1, hlen, h3⟩
    | mat n cols =>
      refine ⟨by simp [applyConst, h1, Arg.snaps], ?_⟩
      simp only [applyConst, h1, if_false]
      refine ⟨hr, by simpa using hs.2.1, ?_⟩
      intro c hcc
      simp only [mem_map] at hcc
      obtain ⟨c', -, rfl⟩ := hcc
      exact hlen

theorem applyLin_spec [CommSemiring K] (E : Mat K) (hE : E.WF) (r k : Nat) (hr : E.nrows = r)
    (hc : E.ncols = r) (s : Arg K) (hs : s.Shaped r k) :
    ∃ out, applyLin E s = .ok out ∧ out.snaps r = (s.snaps r).map (matVec E.rows) ∧
      out.Shaped r k := by
  unfold applyLin
  by_cases h1 : E.nrows = 1
  · have hr1 : r = 1 := by omega
    subst hr1
    obtain ⟨e, he⟩ := rows_one_one hE h1 hc
    have h00 : E.e00 = e := by simp [Mat.e00, he]
    obtain ⟨h2, h3⟩ := emap_snaps_one hs (e * ·)
    refine ⟨_, by rw [if_pos h1, h00], ?_, h3⟩
    rw [h2]
    apply map_congr_left
    intro q hq
    obtain ⟨x, rfl⟩ := length_eq_one_iff.mp (hs.mem_snaps q hq)
    simp [matVec, he, dot]
  · rw [if_neg h1]
    exact matArg_spec E hE hr hc (by omega) s hs (Or.inl (by omega))

theorem applyKron_spec [CommSemiring K] (kd : Kind) (E : Mat K) (hE : E.WF) (r k : Nat)
    (hr : E.nrows = r) (hc : E.ncols = kd.dim r) (s : Arg K) (hs : s.Shaped r k) :
    ∃ out, applyKron kd E s = .ok out ∧
      out.snaps r = (s.snaps r).map (fun q => matVec E.rows (kd.ckron q)) ∧ out.Shaped r k := by
  unfold applyKron
  by_cases h1 : E.nrows = 1
  · have hr1 : r = 1 := by omega
    subst hr1
    obtain ⟨e, he⟩ := rows_one_one hE h1 (by rw [hc]; cases kd <;> rfl)
    have h00 : E.e00 = e := by simp [Mat.e00, he]
    obtain ⟨h2, h3⟩ := emap_snaps_one hs (fun x => e * x ^ kd.deg)
    refine ⟨_, by rw [if_pos h1, h00], ?_, h3⟩
    rw [h2]
    apply map_congr_left
    intro q hq
    obtain ⟨x, rfl⟩ := length_eq_one_iff.mp (hs.mem_snaps q hq)
    rw [ckron_one]
    simp [matVec, he, dot]
  · rw [if_neg h1]
    have hr1 : r ≠ 1 := by omega
    have hpt : ∀ q : List K, q.length = r →
        matVec E.rows ((kd.indices E.nrows).map fun t => (t.map fun i => q.getD i 0).prod)
          = matVec E.rows (kd.ckron q) := by
      intro q hq
      rw [ckron_eq, hq, indices_eq, hr]; rfl
    cases s with
    | scalar x => exact absurd hs.1 hr1
    | vec xs =>
      rcases hs with ⟨h, -⟩ | ⟨-, h2, h3⟩
      · exact absurd h hr1
      · refine ⟨_, by simp only; rw [if_neg (by omega)], ?_, ?_⟩
        · simp only [Arg.snaps, hr1, if_false, map_cons, map_nil]
          rw [hpt xs h2]
        · right; exact ⟨hr1, by rw [length_matVec, hE.1, hr], h3⟩
    | mat n cols =>
      obtain ⟨h2, h3, h4⟩ := hs
      refine ⟨.mat _ _, by simp only; rw [if_neg (by omega)], ?_, hr, by simpa using h3, ?_⟩
      · simp only [Arg.snaps]
        apply map_congr_left
        intro q hq
        exact hpt q (h4 q hq)
      · intro c hcc
        simp only [mem_map] at hcc
        obtain ⟨c', -, rfl⟩ := hcc
        rw [length_matVec, hE.1, hr]

theorem applyInp_spec [CommSemiring K] (E : Mat K) (hE : E.WF) (r m k : Nat) (hr : E.nrows = r)
    (hc : E.ncols = m) (hk : 0 < k) (u : Arg K) (hu : u.Shaped m k)
    (hcomp : r = 1 → m ≠ 1 → u.isMat = false → k = 1) :
    ∃ out, applyInp E u = .ok out ∧ out.snaps r = (u.snaps m).map (matVec E.rows) ∧
      out.Shaped r k := by
  by_cases hm : m = 1
  · subst hm
    by_cases hr1 : r = 1
    · subst hr1
      obtain ⟨e, he⟩ := rows_one_one hE hr hc
      have h00 : E.e00 = e := by simp [Mat.e00, he]
      have hmv : ∀ q ∈ u.snaps 1, matVec E.rows q = q.map (e * ·) := by
        intro q hq
        obtain ⟨x, rfl⟩ := length_eq_one_iff.mp (hu.mem_snaps q hq)
        simp [matVec, he, dot]
      obtain ⟨h2, h3⟩ := emap_snaps_one hu (e * ·)
      have hval : applyInp E u = .ok (u.emap (e * ·)) := by
        cases u with
        | scalar x => simp [applyInp, hc, hr, h00, Arg.emap]
        | vec xs => simp [applyInp, hc, hr, h00, Arg.emap]
        | mat n cols =>
          obtain ⟨h5, h6, h7⟩ := hu
          subst h5
          simp only [applyInp, matArg, hc, if_true, Arg.emap, hr]
          congr 2
          apply map_congr_left
          intro q hq
          exact hmv q hq
      refine ⟨_, hval, ?_, h3⟩
      rw [h2]
      apply map_congr_left
      intro q hq
      exact (hmv q hq).symm
    · have hcol : ∀ x : K, E.col0.map (· * x) = matVec E.rows [x] := by
        intro x
        simp only [Mat.col0, matVec, map_map]
        apply map_congr_left
        intro row hrow
        obtain ⟨e, rfl⟩ := length_eq_one_iff.mp ((hE.2 row hrow).trans hc)
        simp [dot]
      have hcl : ∀ x : K, (E.col0.map (· * x)).length = r := by
        intro x; simp [Mat.col0, hE.1, hr]
      cases u with
      | scalar x =>
        refine ⟨_, by simp only [applyInp, hc, hr, hr1, if_true, if_false]; rfl, ?_, ?_⟩
        · simp only [Arg.snaps, hr1, if_false, map_cons, map_nil, hcol]
        · right; exact ⟨hr1, hcl x, hu.2⟩
      | vec xs =>
        have hx : xs.length = k := by
          rcases hu with ⟨-, h⟩ | ⟨h, -⟩
          · exact h
          · exact absurd rfl h
        by_cases hx1 : xs.length > 1
        · refine ⟨.mat _ _, by simp only [applyInp, hc, hr, hr1, if_true, if_false, hx1]; rfl, ?_,
            rfl, by simpa using hx, ?_⟩
          · simp only [Arg.snaps, if_true, map_map]
            apply map_congr_left
            intro x _
            exact hcol x
          · intro c hcc
            simp only [mem_map] at hcc
            obtain ⟨x, -, rfl⟩ := hcc
            exact hcl x
        · obtain ⟨x, rfl⟩ := length_eq_one_iff.mp (show xs.length = 1 by omega)
          refine ⟨.vec (E.col0.map (· * x)),
            by simp only [applyInp, hc, hr, hr1, if_true, if_false, hx1], ?_, ?_⟩
          · simp only [Arg.snaps, hr1, if_true, if_false, map_cons, map_nil, hcol]
          · right; exact ⟨hr1, hcl x, by simpa using hx.symm⟩
      | mat n cols => exact matArg_spec E hE hr hc hr1 _ hu (Or.inr rfl)
  · by_cases hr1 : r = 1
    · subst hr1
      have hlen : E.rows.length = 1 := hE.1.trans hr
      cases u with
      | scalar x => exact absurd hu.1 hm
      | vec xs =>
        rcases hu with ⟨h, -⟩ | ⟨-, h2, h3⟩
        · exact absurd h hm
        · refine ⟨.vec (matVec E.rows xs), by simp [applyInp, hc, hm, matArg, h2], ?_, ?_⟩
          · obtain ⟨row, hrow⟩ := length_eq_one_iff.mp hlen
            simp [Arg.snaps, hm, matVec, hrow]
          · left; exact ⟨rfl, by rw [length_matVec, hlen, h3]⟩
      | mat n cols =>
        obtain ⟨h5, h6, h7⟩ := hu
        subst h5
        refine ⟨.mat E.nrows (cols.map (matVec E.rows)), by simp [applyInp, matArg, hc], rfl, hr,
          by simpa using h6, ?_⟩
        intro c hcc
        simp only [mem_map] at hcc
        obtain ⟨c', -, rfl⟩ := hcc
        rw [length_matVec, hlen]
    · have : applyInp E u = matArg E u := by
        cases u with
        | scalar x => simp [applyInp, hc, hm]
        | vec xs => simp [applyInp, hc, hm]
        | mat n cols => rfl
      rw [this]
      exact matArg_spec E hE hr hc hr1 u hu (Or.inl hm)

theorem atleast2d_spec {n k : Nat} {s : Arg K} (hs : s.Shaped n k) (h : n = 1 ∨ s.isMat = true) :
    atleast2d s = (n, s.snaps n) := by
  cases s with
  | scalar x => simp only [Arg.Shaped] at hs; simp [atleast2d, Arg.snaps, hs.1]
  | vec xs =>
    rcases h with h | h
    · subst h; simp [atleast2d, Arg.snaps]
    · simp [Arg.isMat] at h
  | mat n' cols => simp only [Arg.Shaped] at hs; simp [atleast2d, Arg.snaps, hs.1]

theorem toVec_spec {n : Nat} {s : Arg K} (hs : s.Shaped n 1) (h : s.isMat = false) :
    s.snaps n = [s.toVec] := by
  cases s with
  | scalar x => rfl
  | vec xs =>
    rcases hs with ⟨h1, h2⟩ | ⟨h1, -⟩
    · obtain ⟨x, rfl⟩ := length_eq_one_iff.mp h2
      simp [Arg.snaps, Arg.toVec]
    · simp [Arg.snaps, Arg.toVec, h1]
  | mat n' cols => simp [Arg.isMat] at h

theorem applyStateInp_spec [CommSemiring K] (E : Mat K) (hE : E.WF) (r m k : Nat)
    (hr : E.nrows = r) (hc : E.ncols = r * m) (s u : Arg K) (hs : s.Shaped r k)
    (hu : u.Shaped m k) (hcomp : Compat r m s u) :
    ∃ out, applyStateInp E s u = .ok out ∧
      out.snaps r = zipWith (fun q v => matVec E.rows (kron v q)) (s.snaps r) (u.snaps m) ∧
      out.Shaped r k := by
  by_cases h1 : E.ncols = 1
  · have hrm : r = 1 ∧ m = 1 := by
      rw [hc] at h1
      exact ⟨Nat.eq_one_of_mul_eq_one_right h1, Nat.eq_one_of_mul_eq_one_left h1⟩
    obtain ⟨rfl, rfl⟩ := hrm
    obtain ⟨e, he⟩ := rows_one_one hE hr h1
    have h00 : E.e00 = e := by simp [Mat.e00, he]
    obtain ⟨out, ho, hsn, hsh⟩ := bmul_spec (fun x y => e * x * y) hu hs
    refine ⟨out, ?_, ?_, hsh⟩
    · unfold applyStateInp
      simp only [h1, if_true, h00]
      exact ho
    · rw [hsn]
      have hm1 := hs.mem_snaps
      have hm2 := hu.mem_snaps
      generalize s.snaps 1 = S at hm1
      generalize u.snaps 1 = U at hm2
      induction S generalizing U with
      | nil => simp
      | cons a S ih =>
        cases U with
        | nil => simp
        | cons b U =>
          obtain ⟨x, rfl⟩ := length_eq_one_iff.mp (hm1 a mem_cons_self)
          obtain ⟨y, rfl⟩ := length_eq_one_iff.mp (hm2 b mem_cons_self)
          simp only [zipWith_cons_cons]
          rw [ih (fun q hq => hm1 q (mem_cons_of_mem _ hq)) U
            (fun q hq => hm2 q (mem_cons_of_mem _ hq))]
          simp [matVec, he, dot, kron, mul_assoc]
  · have hrm : ¬ (r = 1 ∧ m = 1) := by
      rintro ⟨rfl, rfl⟩; exact h1 (by rw [hc])
    have hrows : E.rows.length = r := hE.1.trans hr
    -- the single-snapshot branch
    have single : k = 1 → s.isMat = false → u.isMat = false →
        ∃ out : Arg K, (if (kron u.toVec s.toVec).length = E.ncols then
          Except.ok (Arg.vec (matVec E.rows (kron u.toVec s.toVec))) else .error Err.value) = .ok out ∧
        out.snaps r = zipWith (fun q v => matVec E.rows (kron v q)) (s.snaps r) (u.snaps m) ∧
        out.Shaped r k := by
      intro hk hsm hum
      subst hk
      have e1 := toVec_spec hs hsm
      have e2 := toVec_spec hu hum
      have l1 : s.toVec.length = r := hs.mem_snaps _ (by rw [e1]; simp)
      have l2 : u.toVec.length = m := hu.mem_snaps _ (by rw [e2]; simp)
      refine ⟨_, by rw [if_pos (by rw [length_kron, l1, l2, hc, mul_comm])], ?_, ?_⟩
      · rw [e1, e2]
        by_cases hr1 : r = 1
        · rw [hr1] at hrows
          obtain ⟨row, hrow⟩ := length_eq_one_iff.mp hrows
          simp [Arg.snaps, hr1, matVec, hrow]
        · simp [Arg.snaps, hr1]
      · by_cases hr1 : r = 1
        · left; exact ⟨hr1, by rw [length_matVec, hrows, hr1]⟩
        · right; exact ⟨hr1, by rw [length_matVec, hrows], rfl⟩
    -- the multi-snapshot branch
    have multi : (r = 1 ∨ s.isMat = true) → (m = 1 ∨ u.isMat = true) →
        ∃ out : Arg K, (if (atleast2d s).2.length ≠ (atleast2d u).2.length ∨
            (atleast2d u).1 * (atleast2d s).1 ≠ E.ncols then .error Err.value
          else Except.ok (Arg.mat E.nrows (zipWith (fun a b => matVec E.rows (kron a b))
            (atleast2d u).2 (atleast2d s).2))) = .ok out ∧
        out.snaps r = zipWith (fun q v => matVec E.rows (kron v q)) (s.snaps r) (u.snaps m) ∧
        out.Shaped r k := by
      intro h2 h3
      rw [atleast2d_spec hs h2, atleast2d_spec hu h3]
      refine ⟨.mat _ _, by
        rw [if_neg]
        simp only [hs.length_snaps, hu.length_snaps, hc, ne_eq, not_true_eq_false, false_or,
          not_not]
        ring, ?_, hr, ?_, ?_⟩
      · simp only [Arg.snaps]; rw [zipWith_comm]
      · simp [hs.length_snaps, hu.length_snaps]
      · intro c hcc
        rw [mem_iff_getElem] at hcc
        obtain ⟨i, hi, rfl⟩ := hcc
        rw [getElem_zipWith, length_matVec, hrows]
    unfold applyStateInp
    simp only [h1, if_false, hr]
    obtain ⟨hc1, hc2⟩ := hcomp
    cases s with
    | mat n cols =>
      simp only [Bool.true_or, Bool.not_true, Bool.false_eq_true, if_false]
      refine (hr ▸ multi) (Or.inr rfl) ?_
      cases hu' : u.isMat with
      | true => exact Or.inr rfl
      | false => exact Or.inl (hc1 rfl hu')
    | scalar x =>
      have hk := hs.2
      cases u with
      | mat n' cols' =>
        simp only [Bool.or_true, Bool.not_true, Bool.false_eq_true, if_false]
        exact (hr ▸ multi) (Or.inl hs.1) (Or.inr rfl)
      | scalar y => exact single hk rfl rfl
      | vec ys =>
        simp only [decide_false, Bool.false_and, Bool.or_false, Bool.not_false, if_true]
        exact single hk rfl rfl
    | vec xs =>
      cases u with
      | mat n' cols' =>
        simp only [Bool.or_true, Bool.not_true, Bool.false_eq_true, if_false]
        exact (hr ▸ multi) (Or.inl (hc2 rfl rfl)) (Or.inr rfl)
      | scalar y =>
        have hk := hu.2
        have : ¬ (r = 1 ∧ xs.length > 1) := by
          rintro ⟨h4, h5⟩
          rcases hs with ⟨-, h6⟩ | ⟨h6, -⟩
          · omega
          · exact h6 h4
        have hb : (decide (r = 1) && decide (xs.length > 1)) = false := by
          simpa [Bool.and_eq_false_iff] using this
        simp only [hb, Bool.or_false, Bool.not_false, if_true]
        exact single hk rfl rfl
      | vec ys =>
        have hk : k = 1 := by
          rcases hs with ⟨h4, h5⟩ | ⟨-, -, h5⟩
          · rcases hu with ⟨h6, -⟩ | ⟨-, -, h6⟩
            · exact absurd ⟨h4, h6⟩ hrm
            · exact h6
          · exact h5
        have : ¬ (r = 1 ∧ xs.length > 1) := by
          rintro ⟨h4, h5⟩
          rcases hs with ⟨-, h6⟩ | ⟨h6, -⟩
          · omega
          · exact h6 h4
        have hb : (decide (r = 1) && decide (xs.length > 1)) = false := by
          simpa [Bool.and_eq_false_iff] using this
        simp only [hb, decide_false, Bool.false_and, Bool.or_false, Bool.not_false, if_true]
        exact single hk rfl rfl

/-- **C03.** For every operator class, every valid representation of `k ≥ 1` snapshots and inputs
(scalars, vectors, matrices), `apply` succeeds, and the snapshots of its result are, column by
column, `entries @ datablock`. The entries have the shape `r × operator_dimension(r, m)`. -/
theorem C03_apply_eq_entries_datablock [CommSemiring K] (o : OpKind) (E : Mat K) (hE : E.WF)
    (r m k : Nat) (hr : E.nrows = r) (hc : E.ncols = o.dim r m) (hk : 0 < k)
    (s u : Arg K) (hs : s.Shaped r k) (hu : u.Shaped m k) (hcomp : Compat r m s u) :
    ∃ out, o.apply E s u = .ok out ∧ out.Shaped r k ∧
      out.snaps r = (o.datablock (s.snaps r) (u.snaps m)).map (matVec E.rows) := by
  have hlen : (s.snaps r).length = (u.snaps m).length := by
    rw [hs.length_snaps, hu.length_snaps]
  cases o with
  | const =>
    obtain ⟨h1, h2⟩ := applyConst_spec E hE r k hr hc s hs
    refine ⟨_, rfl, h2, ?_⟩
    rw [h1, OpKind.datablock]
    have := zipWith_left_eq_map (fun _ : List K => ([1] : List K)) _ _ hlen
    refine Eq.trans ?_ (congrArg (map (matVec E.rows)) this).symm
    simp
  | lin =>
    obtain ⟨out, h1, h2, h3⟩ := applyLin_spec E hE r k hr hc s hs
    refine ⟨out, h1, h3, ?_⟩
    rw [h2, OpKind.datablock]
    have := zipWith_left_eq_map (fun q : List K => q) _ _ hlen
    refine Eq.trans ?_ (congrArg (map (matVec E.rows)) this).symm
    simp
  | kron kd =>
    obtain ⟨out, h1, h2, h3⟩ := applyKron_spec kd E hE r k hr hc s hs
    refine ⟨out, h1, h3, ?_⟩
    rw [h2, OpKind.datablock]
    have := zipWith_left_eq_map (fun q : List K => kd.ckron q) _ _ hlen
    refine Eq.trans ?_ (congrArg (map (matVec E.rows)) this).symm
    simp [Function.comp_def]
  | inp =>
    have hc' : r = 1 → m ≠ 1 → u.isMat = false → k = 1 := by
      intro _ hm hum
      cases u with
      | scalar x => exact absurd hu.1 hm
      | vec xs =>
        rcases hu with ⟨h, -⟩ | ⟨-, -, h⟩
        · exact absurd h hm
        · exact h
      | mat n cols => simp [Arg.isMat] at hum
    obtain ⟨out, h1, h2, h3⟩ := applyInp_spec E hE r m k hr hc hk u hu hc'
    refine ⟨out, h1, h3, ?_⟩
    rw [h2, OpKind.datablock]
    have := zipWith_right_eq_map (fun q : List K => q) _ _ hlen
    refine Eq.trans ?_ (congrArg (map (matVec E.rows)) this).symm
    simp
  | stateInp =>
    obtain ⟨out, h1, h2, h3⟩ := applyStateInp_spec E hE r m k hr hc s u hs hu hcomp
    refine ⟨out, h1, h3, ?_⟩
    rw [h2, OpKind.datablock, map_zipWith]
    rfl

-- two snapshots of dimension 2 and two scalar inputs given as a vector
example : (Arg.mat 2 [[1, 2], [3, 4]] : Arg ℚ).Shaped 2 2 ∧ (Arg.vec [5, 6] : Arg ℚ).Shaped 1 2 ∧
    Compat 2 1 (Arg.mat 2 [[1, 2], [3, 4]] : Arg ℚ) (Arg.vec [5, 6]) := by
  simp [Arg.Shaped, Compat, Arg.isMat]
example : OpKind.stateInp.apply (⟨2, 2, [[1, 1], [0, 2]]⟩ : Mat ℚ) (.mat 2 [[1, 2], [3, 4]])
    (.vec [5, 6]) = .ok (.mat 2 [[15, 20], [42, 48]]) := by decide +kernel
-- mixing a vector state with a matrix input (not covered by `Compat`) is rejected by the code
example : OpKind.stateInp.apply (⟨2, 4, [[1, 1, 1, 1], [0, 2, 0, 2]]⟩ : Mat ℚ) (.vec [1, 2])
    (.mat 2 [[5, 6]]) = .error .value := by decide +kernel

end Opinf
