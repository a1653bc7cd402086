import Verif.Model.OpAdd
import Verif.Props.VerifyDdt
import Verif.Props.ModelJacobian
import Verif.Props.Accessors
import Verif.Props.Affine

/-!
# C107: the sum of two operators acts as the sum of the operators

Specification: the values of `apply` and of `jacobian` of the two summands, added entry by entry.
-/

namespace Opinf

open List

variable {K S : Type}

/-! ### Entries -/

theorem badd_eq [AddCommMonoid K] {A B : Mat K} (hA : A.WF) (hB : B.WF) (hn : A.nrows = B.nrows) (hm : A.ncols = B.ncols) :
    badd A B = .ok ⟨A.nrows, A.ncols, zipWith vadd A.rows B.rows⟩ := by
  simp only [badd, ← hn, ← hm, bdim_self, bind, Except.bind, pure, Except.pure, Except.ok.injEq, Mat.mk.injEq, true_and]
  apply ext_getElem
  · simp [hA.1, hB.1, hn]
  · intro i h1 h2
    simp only [length_map, length_range] at h1
    have hiA : i < A.rows.length := by rw [hA.1]; exact h1
    have hiB : i < B.rows.length := by rw [hB.1, ← hn]; exact h1
    have hlA := hA.2 _ (getElem_mem hiA)
    have hlB := hB.2 _ (getElem_mem hiB)
    simp only [getElem_map, getElem_range, getElem_zipWith]
    apply ext_getElem
    · simp [vadd, hlA, hlB, hm]
    · intro j h3 h4
      simp only [length_map, length_range] at h3
      simp only [getElem_map, getElem_range]
      rw [Mat.bget, Mat.bget]
      have e1 : (if A.nrows = 1 then 0 else i) = i := by split <;> omega
      have e2 : (if A.ncols = 1 then 0 else j) = j := by split <;> omega
      have e3 : (if B.nrows = 1 then 0 else i) = i := by split <;> omega
      have e4 : (if B.ncols = 1 then 0 else j) = j := by split <;> omega
      rw [e1, e2, e3, e4, Opinf.getD_eq_getElem A.rows [] hiA,
        Opinf.getD_eq_getElem B.rows [] hiB, Opinf.getD_eq_getElem _ 0 (by omega : j < A.rows[i].length),
        Opinf.getD_eq_getElem _ 0 (by omega : j < B.rows[i].length)]
      simp [vadd]

theorem bdim_comm (a b : Nat) : bdim a b = bdim b a := by
  simp only [bdim]
  by_cases h : a = b
  · rw [h]
  · rw [if_neg h, if_neg (Ne.symm h)]
    by_cases h1 : a = 1
    · rw [if_pos h1, if_pos h1, if_neg (by omega)]
    · rw [if_neg h1, if_neg h1]

theorem badd_comm [AddCommMonoid K] (A B : Mat K) : badd A B = badd B A := by
  simp only [badd, bdim_comm A.nrows, bdim_comm A.ncols, add_comm (A.bget _ _)]

/-- The rows of the sum have the right shape. -/
theorem sumRows_fits [Add K] {o : OpKind} {A B : Mat K} {r m : Nat} (hA : o.Fits A r m) (hB : o.Fits B r m) :
    o.Fits ⟨A.nrows, A.ncols, zipWith vadd A.rows B.rows⟩ r m := by
  refine ⟨⟨?_, ?_⟩, hA.2.1, hA.2.2⟩
  · simp [hA.1.1, hB.1.1, hA.2.1, hB.2.1]
  · intro row hrow
    obtain ⟨i, hi, rfl⟩ := getElem_of_mem hrow
    have h1 : i < A.rows.length ∧ i < B.rows.length := by simpa using hi
    have h2 := hA.1.2 _ (getElem_mem h1.1)
    have h3 := hB.1.2 _ (getElem_mem h1.2)
    rw [hA.2.2] at h2
    rw [hB.2.2] at h3
    simp [vadd, h2, h3, hA.2.2]

/-- The sum of two operators of the same class for the same dimensions. -/
theorem add_eq [Field K] {a b : Op K} {r m : Nat} (hr : 0 < r) (hk : a.kind = b.kind) {A B : Mat K}
    (hA : a.entries = some A) (hB : b.entries = some B) (fA : a.kind.Fits A r m) (fB : b.kind.Fits B r m) :
    a.add b = .ok ⟨a.kind, some ⟨A.nrows, A.ncols, zipWith vadd A.rows B.rows⟩⟩ := by
  rw [← hk] at fB
  rw [Op.add, if_neg (by simp [hk]), hA, hB]
  simp only [badd_eq fA.1 fB.1 (by rw [fA.2.1, fB.2.1]) (by rw [fA.2.2, fB.2.2]), bind, Except.bind,
    setEntries_fits a.kind _ r m hr (sumRows_fits fA fB)]
  rfl

theorem sumRows_matVec [Field K] {o : OpKind} {A B : Mat K} {r m : Nat} (hA : o.Fits A r m) (hB : o.Fits B r m) (d : List K) :
    matVec (zipWith vadd A.rows B.rows) d = vadd (matVec A.rows d) (matVec B.rows d) :=
  matVec_sumRows _ _ _ (o.dim r m) (fun x hx => by rw [hA.1.2 x hx, hA.2.2]) fun x hx => by rw [hB.1.2 x hx, hB.2.2]

/-! ### Property theorems -/

/-- **C107.** Two operators of the same class with entries for the same state and input dimensions: `a + b` succeeds, is an
operator of this class for these dimensions, and `apply` returns, for every state and every input, the sum of what the two
operators return. -/
theorem C107_sum [Field K] (a b : Op K) (r m : Nat) (hr : 0 < r) (hk : a.kind = b.kind) (ha : a.Cal r m) (hb : b.Cal r m) :
    ∃ c, a.add b = .ok c ∧ c.kind = a.kind ∧ c.Cal r m ∧ ∀ (q : List K) (u : Option (List K)), q.length = r →
      InputOK a.kind m u → ∃ x y, Yields (a.apply (.vec q) (u.map .vec)) x ∧ Yields (b.apply (.vec q) (u.map .vec)) y ∧
        Yields (c.apply (.vec q) (u.map .vec)) (vadd x y) := by
  obtain ⟨A, hA, fA⟩ := ha
  obtain ⟨B, hB, fB⟩ := hb
  have fB' := fB
  rw [← hk] at fB'
  have hc : (⟨a.kind, some ⟨A.nrows, A.ncols, zipWith vadd A.rows B.rows⟩⟩ : Op K).Cal r m := ⟨_, rfl, sumRows_fits fA fB'⟩
  refine ⟨_, add_eq hr hk hA hB fA fB, rfl, hc, fun q u hq hu => ⟨a.val q u, b.val q u, ?_, ?_, ?_⟩⟩
  · exact Op.apply_vec ⟨A, hA, fA⟩ q u hq hu
  · exact Op.apply_vec ⟨B, hB, fB⟩ q u hq (by rw [← hk]; exact hu)
  · obtain ⟨w, h1, h2, h3⟩ := Op.apply_vec hc q u hq hu
    refine ⟨w, h1, h2, h3.trans ?_⟩
    simp only [Op.val, hA, hB, ← hk]
    exact sumRows_matVec fA fB' _

/-- **C107**, for any number of snapshots in any of the accepted representations. -/
theorem C107_snapshots [Field K] (a b : Op K) (r m k : Nat) (hr : 0 < r) (hkk : 0 < k) (hk : a.kind = b.kind) (ha : a.Cal r m)
    (hb : b.Cal r m) (s u : Arg K) (hs : s.Shaped r k) (hu : u.Shaped m k) (hcomp : Compat r m s u) :
    ∃ c x y z, a.add b = .ok c ∧ a.apply s (some u) = .ok x ∧ b.apply s (some u) = .ok y ∧ c.apply s (some u) = .ok z ∧
      z.Shaped r k ∧ z.snaps r = zipWith vadd (x.snaps r) (y.snaps r) := by
  obtain ⟨A, hA, fA⟩ := ha
  obtain ⟨B, hB, fB⟩ := hb
  have fB' := fB
  rw [← hk] at fB'
  have fC := sumRows_fits fA fB'
  obtain ⟨x, x1, x2, x3⟩ := C03_apply_eq_entries_datablock a.kind A fA.1 r m k fA.2.1 fA.2.2 hkk s u hs hu hcomp
  obtain ⟨y, y1, y2, y3⟩ := C03_apply_eq_entries_datablock a.kind B fB'.1 r m k fB'.2.1 fB'.2.2 hkk s u hs hu hcomp
  obtain ⟨z, z1, z2, z3⟩ := C03_apply_eq_entries_datablock a.kind _ fC.1 r m k fC.2.1 fC.2.2 hkk s u hs hu hcomp
  refine ⟨_, x, y, z, add_eq hr hk hA hB fA fB, ?_, ?_, ?_, z2, ?_⟩
  · simpa [Op.apply, hA] using x1
  · simpa [Op.apply, hB, ← hk] using y1
  · simpa [Op.apply] using z1
  · rw [x3, y3, z3]
    generalize a.kind.datablock (s.snaps r) (u.snaps m) = D
    induction D with
    | nil => rfl
    | cons d D ih =>
      simp only [map_cons, zipWith_cons_cons]
      rw [← ih, sumRows_matVec fA fB']

/-- The first-order coefficient is determined by the values. -/
theorem taylor_first [Field K] [CharZero K] {r : Nat} {a b c2 c3 c4 b' c2' c3' c4' : List K} (ha : a.length = r)
    (hb : b.length = r) (h2 : c2.length = r) (h3 : c3.length = r) (h4 : c4.length = r)
    (hb' : b'.length = r) (h2' : c2'.length = r) (h3' : c3'.length = r) (h4' : c4'.length = r)
    (h : ∀ t : K, taylor t a b c2 c3 c4 = taylor t a b' c2' c3' c4') : b = b' := by
  refine ext_getElem (by omega) fun i i1 i2 => ?_
  have entry : ∀ (t : K) (b c2 c3 c4 : List K) (x0 : i < a.length) (x1 : i < b.length) (x2 : i < c2.length) (x3 : i < c3.length)
      (x4 : i < c4.length), (taylor t a b c2 c3 c4).getD i 0 =
        a[i] + t * b[i] + t ^ 2 * c2[i] + t ^ 3 * c3[i] + t ^ 4 * c4[i] := by
    intro t b c2 c3 c4 x0 x1 x2 x3 x4
    rw [Opinf.getD_eq_getElem (taylor t a b c2 c3 c4) _ (by simp [taylor, vadd, vsmul]; omega)]
    simp only [taylor, vadd, vsmul, getElem_zipWith, getElem_map]
  have hpoly : ∀ t : K, t * b[i] + t ^ 2 * c2[i] + t ^ 3 * c3[i] + t ^ 4 * c4[i] =
      t * b'[i] + t ^ 2 * c2'[i] + t ^ 3 * c3'[i] + t ^ 4 * c4'[i] := by
    intro t
    have : (taylor t a b c2 c3 c4).getD i 0 = (taylor t a b' c2' c3' c4').getD i 0 := by rw [h t]
    rw [entry t _ _ _ _ (by omega) i1 (by omega) (by omega) (by omega),
      entry t _ _ _ _ (by omega) i2 (by omega) (by omega) (by omega)] at this
    linear_combination this
  have h12 : (12 : K) * b[i] = 12 * b'[i] := by
    linear_combination 8 * hpoly 1 - 8 * hpoly (-1) - hpoly 2 + hpoly (-2)
  exact mul_left_cancel₀ (by norm_num) h12

/-- A matrix is determined by its products with vectors. -/
theorem rows_ext [Field K] {r : Nat} {J J' : List (List K)} (hJ : J.length = r) (hJ' : J'.length = r)
    (hr : ∀ row ∈ J, row.length = r) (hr' : ∀ row ∈ J', row.length = r)
    (key : ∀ d : List K, d.length = r → matVec J' d = matVec J d) : J' = J := by
  refine ext_getElem (by rw [hJ, hJ']) fun i h1 h2 => ?_
  refine ext_getElem (by rw [hr' _ (getElem_mem _), hr _ (getElem_mem _)]) fun k g1 g2 => ?_
  have hk : k < r := by rw [hr' _ (getElem_mem _)] at g1; exact g1
  have h3 := key ((range r).map fun i => if k = i then (1 : K) else 0) (by simp)
  have h4 : (matVec J' ((range r).map fun i => if k = i then (1 : K) else 0)).getD i 0 =
      (matVec J ((range r).map fun i => if k = i then (1 : K) else 0)).getD i 0 := by rw [h3]
  rw [Opinf.getD_eq_getElem (matVec J' _) _ (by rw [length_matVec]; exact h1),
    Opinf.getD_eq_getElem (matVec J _) _ (by rw [length_matVec]; exact h2)] at h4
  simp only [matVec, getElem_map] at h4
  rw [dot_unit r k _ (hr' _ (getElem_mem _)) hk, dot_unit r k _ (hr _ (getElem_mem _)) hk,
    Opinf.getD_eq_getElem J'[i] _ g1, Opinf.getD_eq_getElem J[i] _ g2] at h4
  exact h4

/-- **C107** (Jacobian): the Jacobian of the sum is the sum of the Jacobians. -/
theorem C107_jacobian [Field K] [CharZero K] (a b c : Op K) (r m : Nat) (hr : 0 < r) (hk : a.kind = b.kind) (ha : a.Cal r m)
    (hb : b.Cal r m) (hc : a.add b = .ok c) (q u : List K) (hq : q.length = r) (hu : u.length = m) :
    ∃ A B C JA JB, a.entries = some A ∧ b.entries = some B ∧ c.entries = some C ∧ a.kind.jacobian A q u = .ok JA ∧
      b.kind.jacobian B q u = .ok JB ∧ c.kind.jacobian C q u = .ok (zipWith vadd JA JB) := by
  obtain ⟨c', e1, e2, e3, e4⟩ := C107_sum a b r m hr hk ha hb
  rw [hc] at e1
  cases e1
  have hval : ∀ q' : List K, q'.length = r → c.val q' (some u) = vadd (a.val q' (some u)) (b.val q' (some u)) := by
    intro q' hq'
    obtain ⟨x, y, hx, hy, hz⟩ := e4 q' (some u) hq' fun _ => ⟨u, rfl, hu⟩
    have hx' : Yields (a.apply (.vec q') ((some u).map .vec)) (a.val q' (some u)) :=
      Op.apply_vec ha q' _ hq' fun _ => ⟨u, rfl, hu⟩
    have hy' : Yields (b.apply (.vec q') ((some u).map .vec)) (b.val q' (some u)) :=
      Op.apply_vec hb q' _ hq' fun _ => ⟨u, rfl, hu⟩
    have hz' : Yields (c.apply (.vec q') ((some u).map .vec)) (c.val q' (some u)) :=
      Op.apply_vec e3 q' _ hq' fun _ => ⟨u, rfl, hu⟩
    rw [hx'.unique hx, hy'.unique hy, hz'.unique hz]
  obtain ⟨A, JA, a1, a2, a3, a4, -⟩ := ha.taylor_val hr q u q hq hu hq
  obtain ⟨B, JB, b1, b2, b3, b4, -⟩ := hb.taylor_val hr q u q hq hu hq
  obtain ⟨C, JC, c1, c2, c3, c4, -⟩ := e3.taylor_val hr q u q hq hu hq
  refine ⟨A, B, C, JA, JB, a1, b1, c1, a2, b2, ?_⟩
  rw [c2]
  congr 1
  have hrow : ∀ row ∈ zipWith vadd JA JB, row.length = r := by
    intro row hrow
    obtain ⟨i, hi, rfl⟩ := getElem_of_mem hrow
    have h1 : i < JA.length ∧ i < JB.length := by simpa using hi
    simp [vadd, a4 _ (getElem_mem h1.1), b4 _ (getElem_mem h1.2)]
  refine rows_ext (by simp [a3, b3]) c3 hrow c4 fun d hd => ?_
  obtain ⟨A', JA', x1, x2, x3, x4, P2, P3, P4, p2, p3, p4, ht⟩ := ha.taylor_val hr q u d hq hu hd
  obtain ⟨B', JB', y1, y2, y3, y4, Q2, Q3, Q4, q2, q3, q4, ht'⟩ := hb.taylor_val hr q u d hq hu hd
  obtain ⟨C', JC', z1, z2, z3, z4, R2, R3, R4, r2, r3, r4, ht''⟩ := e3.taylor_val hr q u d hq hu hd
  rw [a1] at x1
  rw [b1] at y1
  rw [c1] at z1
  cases x1
  cases y1
  cases z1
  rw [a2] at x2
  rw [b2] at y2
  rw [c2] at z2
  cases x2
  cases y2
  cases z2
  rw [matVec_sumRows JA JB d r a4 b4]
  refine taylor_first (r := r) (a := c.val q (some u)) (e3.length_val _ _) (by simp [length_matVec, c3]) r2 r3 r4
    (by simp [length_matVec, a3, b3]) (c2' := vadd P2 Q2) (c3' := vadd P3 Q3) (c4' := vadd P4 Q4) (by simp [p2, q2])
    (by simp [p3, q3]) (by simp [p4, q4]) fun t => ?_
  rw [← ht'' t, hval _ (by simp [hq, hd]), ht t, ht' t, hval q hq,
    taylor_add (r := r) t (ha.length_val _ _) (by simp [length_matVec, a3]) p2 p3 p4 (hb.length_val _ _)
      (by simp [length_matVec, b3]) q2 q3 q4]

/-- **C107** (order): for any two operators, with or without entries, `a + b` and `b + a` are the same operator or raise the
same exception. -/
theorem C107_comm [AddCommMonoid K] (a b : Op K) : a.add b = b.add a := by
  simp only [Op.add]
  by_cases hk : a.kind = b.kind
  · rw [if_neg (by simp [hk]), if_neg (by simp [hk]), hk]
    cases a.entries with
    | none => cases b.entries <;> rfl
    | some A =>
      cases b.entries with
      | none => rfl
      | some B => simp only [badd_comm A B]
  · rw [if_pos hk, if_pos (Ne.symm hk)]

theorem vadd_assoc3 [AddCommMonoid K] (x y z : List K) : vadd (vadd x y) z = vadd x (vadd y z) := by
  simp only [vadd]
  refine ext_getElem (by simp [Nat.min_assoc]) fun i h1 h2 => ?_
  simp [add_assoc]

theorem vadd_right_comm3 [AddCommMonoid K] (x y z : List K) : vadd (vadd x y) z = vadd (vadd x z) y := by
  simp only [vadd]
  refine ext_getElem (by simp; omega) fun i h1 h2 => ?_
  simp [add_right_comm]

theorem sumRows_assoc [AddCommMonoid K] (A B C : List (List K)) :
    zipWith vadd (zipWith vadd A B) C = zipWith vadd A (zipWith vadd B C) := by
  induction A generalizing B C with
  | nil => rfl
  | cons x A ih =>
    cases B with
    | nil => rfl
    | cons y B =>
      cases C with
      | nil => rfl
      | cons z C =>
        simp only [zipWith_cons_cons, ih]
        congr 1
        exact vadd_assoc3 x y z

/-- **C107** (grouping): `(a + b) + c = a + (b + c)`. -/
theorem C107_assoc [Field K] (a b c : Op K) (r m : Nat) (hr : 0 < r) (hab : a.kind = b.kind) (hbc : b.kind = c.kind)
    (ha : a.Cal r m) (hb : b.Cal r m) (hc : c.Cal r m) :
    ∃ d, (a.add b >>= fun s => s.add c) = .ok d ∧ (b.add c >>= fun s => a.add s) = .ok d := by
  obtain ⟨A, hA, fA⟩ := ha
  obtain ⟨B, hB, fB⟩ := hb
  obtain ⟨C, hC, fC⟩ := hc
  rw [add_eq hr hab hA hB fA fB, add_eq hr hbc hB hC fB fC]
  simp only [bind, Except.bind]
  have fB' := fB
  rw [← hab] at fB'
  have fC' := fC
  rw [← hbc] at fC'
  refine ⟨_, add_eq (a := ⟨a.kind, some ⟨A.nrows, A.ncols, zipWith vadd A.rows B.rows⟩⟩) hr (hab.trans hbc) rfl hC
    (sumRows_fits fA fB') fC, ?_⟩
  rw [add_eq (b := ⟨b.kind, some ⟨B.nrows, B.ncols, zipWith vadd B.rows C.rows⟩⟩) hr hab hA rfl fA (sumRows_fits fB fC')]
  simp only [sumRows_assoc]

/-- **C107** (refusals): operators of different classes, and operators without entries, are refused with `TypeError`. -/
theorem C107_refused [AddMonoid K] (a b : Op K) (h : a.kind ≠ b.kind ∨ a.entries = none ∨ b.entries = none) :
    a.add b = .error .type := by
  simp only [Op.add]
  by_cases hk : a.kind = b.kind
  · rw [if_neg (by simp [hk])]
    rcases h with h | h | h
    · exact absurd hk h
    · rw [h]
    · rw [h]
      cases a.entries <;> rfl
  · rw [if_pos hk]

/-- **C107** (what is stored): the sum is returned exactly if the entries can be added and the sum is accepted as entries of
an operator of the class; it holds what that class stores for the sum. -/
theorem C107_stored [AddMonoid K] (a b c : Op K) :
    a.add b = .ok c ↔ a.kind = b.kind ∧ c.kind = a.kind ∧ ∃ A B E C, a.entries = some A ∧ b.entries = some B ∧
      badd A B = .ok E ∧ a.kind.setEntries E = .ok C ∧ c.entries = some C := by
  by_cases hk : a.kind = b.kind
  · cases ha : a.entries with
    | none => simp [Op.add, hk, ha]
    | some A =>
      cases hb : b.entries with
      | none => simp [Op.add, hk, ha, hb]
      | some B =>
        simp only [Op.add, ha, hb, bind, Except.bind, pure, Except.pure]
        rw [if_neg (by simp [hk])]
        cases hE : badd A B with
        | error e => simp [hE]
        | ok E =>
          cases hC : a.kind.setEntries E with
          | error e =>
            simp only
            rw [hC]
            simp only [reduceCtorEq, false_iff, Option.some.injEq, not_and]
            rintro - - ⟨A', B', E', C, rfl, rfl, h3, h4, -⟩
            rw [hE] at h3
            cases h3
            rw [hC] at h4
            cases h4
          | ok C =>
            simp only
            rw [hC]
            simp only [Except.ok.injEq, Option.some.injEq]
            constructor
            · rintro rfl
              exact ⟨hk, rfl, A, B, E, C, rfl, rfl, hE, hC, rfl⟩
            · rintro ⟨-, h2, A', B', E', C', rfl, rfl, h5, h6, h7⟩
              rw [hE] at h5
              cases h5
              rw [hC] at h6
              cases h6
              cases c
              simp only at h2 h7
              rw [h2, h7]
  · rw [C107_refused a b (.inl hk)]
    simp [hk]

/-- A sum that is refused: the entries do not fit together. -/
example : badd (⟨2, 2, [[1, 0], [0, 1]]⟩ : Mat ℚ) ⟨3, 3, [[1, 0, 0], [0, 1, 0], [0, 0, 1]]⟩ = .error .value ∧
    (⟨.lin, some ⟨1, 1, [[1]]⟩⟩ : Op ℚ).add ⟨.lin, some ⟨2, 2, [[1, 0], [0, 1]]⟩⟩ =
      .ok ⟨.lin, some ⟨2, 2, [[2, 1], [1, 2]]⟩⟩ := by
  refine ⟨rfl, by decide +kernel⟩

/-- **C107** (in a model): replacing two operators of a model by their sum does not change the right-hand side. -/
theorem C107_merge [Field K] (M N : Model K S) (r m : Nat) (hr : 0 < r) (pre mid post : List (Op K)) (a b c : Op K)
    (hM : M.ops = pre ++ a :: (mid ++ b :: post)) (hN : N.ops = pre ++ c :: (mid ++ post)) (hcal : ∀ o ∈ M.ops, o.Cal r m)
    (hk : a.kind = b.kind) (hc : a.add b = .ok c) (q : List K) (u : Option (List K)) (hq : q.length = r)
    (hu : ∀ o ∈ M.ops, InputOK o.kind m u) : ∃ y, M.rhs q u = .ok y ∧ N.rhs q u = .ok y := by
  have ha : a.Cal r m := hcal a (by simp [hM])
  have hb : b.Cal r m := hcal b (by simp [hM])
  obtain ⟨c', e1, e2, e3, e4⟩ := C107_sum a b r m hr hk ha hb
  rw [hc] at e1
  cases e1
  have hua := hu a (by simp [hM])
  have hub := hu b (by simp [hM])
  have hval : c.val q u = vadd (a.val q u) (b.val q u) := by
    obtain ⟨x, y, hx, hy, hz⟩ := e4 q u hq hua
    have hx' : Yields (a.apply (.vec q) (u.map .vec)) (a.val q u) := Op.apply_vec ha q _ hq hua
    have hy' : Yields (b.apply (.vec q) (u.map .vec)) (b.val q u) := Op.apply_vec hb q _ hq hub
    have hz' : Yields (c.apply (.vec q) (u.map .vec)) (c.val q u) := Op.apply_vec e3 q _ hq (by rw [e2]; exact hua)
    rw [hx'.unique hx, hy'.unique hy, hz'.unique hz]
  refine ⟨_, rhs_eq M r m hcal q u hq hu, ?_⟩
  have hsub : ∀ o ∈ N.ops, o = c ∨ o ∈ M.ops := by
    intro o ho
    rw [hN] at ho
    rw [hM]
    simp only [mem_append, mem_cons] at ho ⊢
    tauto
  rw [rhs_eq N r m (fun o ho => ?_) q u hq fun o ho => ?_]
  · congr 1
    rw [rhsVal, rhsVal, hM, hN]
    simp only [map_append, map_cons, foldl_append, foldl_cons]
    have hperm : ∀ (l : List (List K)) (acc x : List K), l.foldl vadd (vadd acc x) = vadd (l.foldl vadd acc) x := by
      intro l
      induction l with
      | nil => intro acc x; rfl
      | cons y l ih =>
        intro acc x
        simp only [foldl_cons]
        rw [← ih]
        rw [vadd_right_comm3]
    rw [hval]
    congr 1
    rw [← hperm _ (vadd _ (a.val q u)), vadd_assoc3]
  · rcases hsub o ho with rfl | h
    · exact e3
    · exact hcal o h
  · rcases hsub o ho with rfl | h
    · rw [e2]; exact hua
    · exact hu o h

/-! ### Operators of different dimensions -/

theorem bdim_one (n : Nat) : bdim 1 n = .ok n := by
  simp only [bdim]
  split <;> simp_all

theorem dim_one (o : OpKind) (h : o.hasInputs = false) (m : Nat) : o.dim 1 m = 1 := by
  cases o with
  | kron k => cases k <;> rfl
  | _ => first | rfl | simp [OpKind.hasInputs] at h

/-- An operator for one state variable, added to an operator of the same class for `r` state variables: its coefficient is
added to all entries. -/
theorem add_scalar [Field K] (a b : Op K) (r m m' : Nat) (hr : 0 < r) (hk : a.kind = b.kind)
    (hi : a.kind.hasInputs = false) (A B : Mat K) (hA : a.entries = some A) (hB : b.entries = some B)
    (fA : a.kind.Fits A 1 m) (fB : b.kind.Fits B r m') :
    a.add b = .ok ⟨a.kind, some ⟨B.nrows, B.ncols, B.rows.map fun row => row.map (A.e00 + ·)⟩⟩ ∧
      a.kind.Fits ⟨B.nrows, B.ncols, B.rows.map fun row => row.map (A.e00 + ·)⟩ r m' := by
  have hAc : A.ncols = 1 := by rw [fA.2.2, dim_one a.kind hi]
  have hf : a.kind.Fits ⟨B.nrows, B.ncols, B.rows.map fun row => row.map (A.e00 + ·)⟩ r m' := by
    rw [hk]
    refine ⟨⟨by simpa using fB.1.1, ?_⟩, fB.2.1, fB.2.2⟩
    intro row hrow
    obtain ⟨x, hx, rfl⟩ := mem_map.1 hrow
    simpa using fB.1.2 x hx
  refine ⟨?_, hf⟩
  rw [Op.add, if_neg (by simp [hk]), hA, hB]
  have hb : badd A B = .ok ⟨B.nrows, B.ncols, B.rows.map fun row => row.map (A.e00 + ·)⟩ := by
    simp only [badd, fA.2.1, hAc, bdim_one, bind, Except.bind, pure, Except.pure, Except.ok.injEq, Mat.mk.injEq, true_and]
    apply ext_getElem
    · simp [fB.1.1]
    · intro i h1 h2
      simp only [length_map, length_range] at h1
      have hiB : i < B.rows.length := by rw [fB.1.1]; exact h1
      have hlB := fB.1.2 _ (getElem_mem hiB)
      simp only [getElem_map, getElem_range]
      apply ext_getElem
      · simp [hlB]
      · intro j h3 h4
        simp only [length_map, length_range] at h3
        simp only [getElem_map, getElem_range]
        rw [Mat.bget, if_pos fA.2.1, if_pos hAc, Mat.bget]
        have e3 : (if B.nrows = 1 then 0 else i) = i := by split <;> omega
        have e4 : (if B.ncols = 1 then 0 else j) = j := by split <;> omega
        rw [e3, e4, Opinf.getD_eq_getElem B.rows [] hiB, Opinf.getD_eq_getElem _ 0 (by omega : j < B.rows[i].length)]
        rfl
  simp only [hb, bind, Except.bind, setEntries_fits a.kind _ r m' hr hf]
  rfl

/-- **C107** (dimensions): operators of the same class without inputs for `r` and `s` state variables can be added if and
only if `r = s` or one of the two is `1`; everything else is refused with `ValueError`. -/
theorem C107_dimensions [Field K] (a b : Op K) (r s m m' : Nat) (hr : 0 < r) (hs : 0 < s) (hk : a.kind = b.kind)
    (hi : a.kind.hasInputs = false) (ha : a.Cal r m) (hb : b.Cal s m') :
    ((∃ c, a.add b = .ok c) ↔ r = s ∨ r = 1 ∨ s = 1) ∧ (¬ (r = s ∨ r = 1 ∨ s = 1) → a.add b = .error .value) := by
  obtain ⟨A, hA, fA⟩ := ha
  obtain ⟨B, hB, fB⟩ := hb
  have hbad : ¬ (r = s ∨ r = 1 ∨ s = 1) → a.add b = .error .value := by
    intro h
    rw [Op.add, if_neg (by simp [hk]), hA, hB]
    have : badd A B = .error .value := by
      simp only [badd, bdim, fA.2.1, fB.2.1]
      rw [if_neg (by tauto), if_neg (by tauto), if_neg (by tauto)]
      rfl
    simp only [this, bind, Except.bind]
  refine ⟨⟨?_, ?_⟩, hbad⟩
  · rintro ⟨c, hc⟩
    by_contra h
    rw [hbad h] at hc
    cases hc
  · rintro (rfl | rfl | rfl)
    · exact ⟨_, add_eq hr hk hA hB fA (fits_ignores_input b.kind (by rw [← hk]; exact hi) B _ m' m fB)⟩
    · exact ⟨_, (add_scalar a b s m m' hs hk hi A B hA hB fA fB).1⟩
    · rw [C107_comm]
      exact ⟨_, (add_scalar b a r m' m hr hk.symm (by rw [← hk]; exact hi) B A hB hA fB fA).1⟩

/-- **C107** (finding): operators of different dimensions are not always refused. The coefficient of an operator for one
state variable is added to all entries of the other operator. -/
theorem C107_stretched [Field K] (a b : Op K) (r m m' : Nat) (hr : 0 < r) (hk : a.kind = b.kind)
    (hi : a.kind.hasInputs = false) (A B : Mat K) (hA : a.entries = some A) (hB : b.entries = some B)
    (fA : a.kind.Fits A 1 m) (fB : b.kind.Fits B r m') :
    ∃ c C, a.add b = .ok c ∧ c.kind = a.kind ∧ c.entries = some C ∧ c.Cal r m' ∧
      C.rows = B.rows.map fun row => row.map (A.e00 + ·) := by
  obtain ⟨h1, h2⟩ := add_scalar a b r m m' hr hk hi A B hA hB fA fB
  exact ⟨_, _, h1, rfl, rfl, ⟨_, rfl, h2⟩, rfl⟩

/-! ### Examples -/

/-- Two linear operators. -/
def addA : Op ℚ := ⟨.lin, some ⟨2, 2, [[1, 2], [3, 4]]⟩⟩
def addB : Op ℚ := ⟨.lin, some ⟨2, 2, [[1, 0], [0, -1]]⟩⟩
def addC : Op ℚ := ⟨.lin, some ⟨1, 1, [[10]]⟩⟩

theorem addA_cal : addA.Cal 2 0 := ⟨_, rfl, ⟨by decide +kernel, rfl, rfl⟩⟩
theorem addB_cal : addB.Cal 2 0 := ⟨_, rfl, ⟨by decide +kernel, rfl, rfl⟩⟩

example : addA.add addB = .ok ⟨.lin, some ⟨2, 2, [[2, 2], [3, 3]]⟩⟩ := by decide +kernel
example : ∃ c, addA.add addB = .ok c ∧ c.kind = .lin ∧ c.Cal 2 0 := by
  obtain ⟨c, h1, h2, h3, -⟩ := C107_sum addA addB 2 0 (by decide) rfl addA_cal addB_cal
  exact ⟨c, h1, h2, h3⟩

-- quadratic operators, compressed entries
example : (⟨.kron .quad, some ⟨2, 3, [[1, 2, 3], [4, 5, 6]]⟩⟩ : Op ℚ).add ⟨.kron .quad, some ⟨2, 3, [[1, 1, 1], [0, 0, 1]]⟩⟩ =
    .ok ⟨.kron .quad, some ⟨2, 3, [[2, 3, 4], [4, 5, 7]]⟩⟩ := by decide +kernel

-- different classes, missing entries
example : addA.add ⟨.const, some ⟨2, 1, [[1], [2]]⟩⟩ = .error .type := C107_refused _ _ (.inl (by decide))
example : addA.add ⟨.lin, none⟩ = .error .type := C107_refused _ _ (.inr (.inr rfl))

-- the entry of a scalar operator is added to all entries
example : addC.add addA = .ok ⟨.lin, some ⟨2, 2, [[11, 12], [13, 14]]⟩⟩ := by decide +kernel

-- input operators for one and for three inputs
example : (⟨.inp, some ⟨2, 1, [[1], [2]]⟩⟩ : Op ℚ).add ⟨.inp, some ⟨2, 3, [[1, 0, 0], [0, 1, 0]]⟩⟩ =
    .ok ⟨.inp, some ⟨2, 3, [[2, 1, 1], [2, 3, 2]]⟩⟩ := by decide +kernel

-- dimensions 2 and 3
example : addA.add ⟨.lin, some ⟨3, 3, [[1, 0, 0], [0, 1, 0], [0, 0, 1]]⟩⟩ = .error .value :=
  (C107_dimensions addA ⟨.lin, some ⟨3, 3, [[1, 0, 0], [0, 1, 0], [0, 0, 1]]⟩⟩ 2 3 0 0 (by decide) (by decide) rfl rfl addA_cal ⟨_, rfl, ⟨by decide +kernel, rfl, rfl⟩⟩).2 (by decide)

end Opinf
