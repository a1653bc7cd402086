import Verif.Model.Verify
import Verif.Lemmas.TransformLeaf
import Verif.Lemmas.TransformParts
import Verif.Lemmas.Lift
import Verif.Props.TransformInv

/-!
# Lemmas on `verify()` of transformers
-/

namespace Opinf

open List

variable {K S : Type}

theorem forall2_right_mem {α β : Type} {R : α → β → Prop} {l : List α} {m : List β} (h : Forall₂ R l m)
    {y : β} (hy : y ∈ m) : ∃ x ∈ l, R x y := by
  induction h with
  | nil => simp at hy
  | cons h1 _ ih =>
    rcases mem_cons.1 hy with rfl | hy
    · exact ⟨_, mem_cons_self, h1⟩
    · obtain ⟨x, hx, hr⟩ := ih hy
      exact ⟨x, mem_cons_of_mem _ hx, hr⟩

/-! ### Finite differences of rows -/

section Grad

variable [Field K] [LinearOrder K] [IsStrictOrderedRing K]

omit [LinearOrder K] [IsStrictOrderedRing K] in
theorem length_gradTail (t0 t1 t2 f0 f1 f2 : K) (ts fs : List K) (h : fs.length = ts.length) :
    (gradTail (t0 :: t1 :: t2 :: ts) (f0 :: f1 :: f2 :: fs)).length = ts.length + 2 := by
  induction ts generalizing t0 t1 t2 f0 f1 f2 fs with
  | nil => simp [gradTail]
  | cons t3 ts ih =>
    cases fs with
    | nil => simp at h
    | cons f3 fs =>
      rw [gradTail]
      · simp only [length_cons] at h ⊢
        rw [ih t1 t2 t3 f1 f2 f3 fs (by omega)]
      · simp

omit [LinearOrder K] [IsStrictOrderedRing K] in
theorem length_gradRow {t f g : List K} (hl : f.length = t.length) (h : gradRow t f = .ok g) :
    g.length = t.length := by
  match t, f, hl, h with
  | [], _, _, h => simp [gradRow] at h
  | [_], _, _, h => simp [gradRow] at h
  | [_, _], _, _, h => simp [gradRow] at h
  | _ :: _ :: _ :: _, [], _, h => simp [gradRow] at h
  | _ :: _ :: _ :: _, [_], _, h => simp [gradRow] at h
  | _ :: _ :: _ :: _, [_, _], _, h => simp [gradRow] at h
  | t0 :: t1 :: t2 :: ts, f0 :: f1 :: f2 :: fs, hl, h =>
    simp only [gradRow, Except.ok.injEq] at h
    subst h
    simp only [length_cons] at hl ⊢
    rw [length_gradTail t0 t1 t2 f0 f1 f2 ts fs (by omega)]

theorem gradInterior_affine (hs hd a c f0 f1 f2 : K) (h1 : 0 < hs) (h2 : 0 < hd) :
    gradInterior hs hd (a * f0 + c) (a * f1 + c) (a * f2 + c) = a * gradInterior hs hd f0 f1 f2 := by
  have e1 : hs ≠ 0 := h1.ne'
  have e2 : hd ≠ 0 := h2.ne'
  have e3 : hs + hd ≠ 0 := (add_pos h1 h2).ne'
  unfold gradInterior
  field_simp
  ring

theorem gradFirst_affine (hs hd a c f0 f1 f2 : K) (h1 : 0 < hs) (h2 : 0 < hd) :
    gradFirst hs hd (a * f0 + c) (a * f1 + c) (a * f2 + c) = a * gradFirst hs hd f0 f1 f2 := by
  have e1 : hs ≠ 0 := h1.ne'
  have e2 : hd ≠ 0 := h2.ne'
  have e3 : hs + hd ≠ 0 := (add_pos h1 h2).ne'
  unfold gradFirst
  field_simp
  ring

theorem gradLast_affine (hs hd a c f0 f1 f2 : K) (h1 : 0 < hs) (h2 : 0 < hd) :
    gradLast hs hd (a * f0 + c) (a * f1 + c) (a * f2 + c) = a * gradLast hs hd f0 f1 f2 := by
  have e1 : hs ≠ 0 := h1.ne'
  have e2 : hd ≠ 0 := h2.ne'
  have e3 : hs + hd ≠ 0 := (add_pos h1 h2).ne'
  unfold gradLast
  field_simp
  ring

theorem gradTail_affine (a c t0 t1 t2 f0 f1 f2 : K) (ts fs : List K) (h : fs.length = ts.length)
    (ht : (t0 :: t1 :: t2 :: ts).Pairwise (· < ·)) :
    gradTail (t0 :: t1 :: t2 :: ts) ((f0 :: f1 :: f2 :: fs).map (a * · + c)) =
      (gradTail (t0 :: t1 :: t2 :: ts) (f0 :: f1 :: f2 :: fs)).map (a * ·) := by
  induction ts generalizing t0 t1 t2 f0 f1 f2 fs with
  | nil =>
    simp only [pairwise_cons, mem_cons] at ht
    have e1 : 0 < t1 - t0 := sub_pos.2 (ht.1 t1 (by simp))
    have e2 : 0 < t2 - t1 := sub_pos.2 (ht.2.1 t2 (by simp))
    simp only [map_cons, gradTail]
    rw [gradInterior_affine _ _ _ _ _ _ _ e1 e2, gradLast_affine _ _ _ _ _ _ _ e1 e2]
    rfl
  | cons t3 ts ih =>
    cases fs with
    | nil => simp at h
    | cons f3 fs =>
      have ht' := ht
      simp only [pairwise_cons, mem_cons] at ht
      have e1 : 0 < t1 - t0 := sub_pos.2 (ht.1 t1 (by simp))
      have e2 : 0 < t2 - t1 := sub_pos.2 (ht.2.1 t2 (by simp))
      have := ih t1 t2 t3 f1 f2 f3 fs (by simpa using h) (pairwise_cons.1 ht').2
      simp only [map_cons] at this ⊢
      have step : ∀ g0 g1 g2 g3 : K, ∀ gs : List K,
          gradTail (t0 :: t1 :: t2 :: t3 :: ts) (g0 :: g1 :: g2 :: g3 :: gs) =
            gradInterior (t1 - t0) (t2 - t1) g0 g1 g2 ::
              gradTail (t1 :: t2 :: t3 :: ts) (g1 :: g2 :: g3 :: gs) := fun _ _ _ _ _ => by
        rw [gradTail]
        simp
      rw [step, step, gradInterior_affine _ _ _ _ _ _ _ e1 e2, map_cons, this]

theorem gradRow_affine (a c : K) {t f g : List K} (ht : t.Pairwise (· < ·)) (hl : f.length = t.length)
    (h : gradRow t f = .ok g) : gradRow t (f.map (a * · + c)) = .ok (g.map (a * ·)) := by
  match t, f, hl, h, ht with
  | [], _, _, h, _ => simp [gradRow] at h
  | [_], _, _, h, _ => simp [gradRow] at h
  | [_, _], _, _, h, _ => simp [gradRow] at h
  | _ :: _ :: _ :: _, [], _, h, _ => simp [gradRow] at h
  | _ :: _ :: _ :: _, [_], _, h, _ => simp [gradRow] at h
  | _ :: _ :: _ :: _, [_, _], _, h, _ => simp [gradRow] at h
  | t0 :: t1 :: t2 :: ts, f0 :: f1 :: f2 :: fs, hl, h, ht =>
    simp only [gradRow, Except.ok.injEq] at h
    subst h
    have ht' := ht
    simp only [pairwise_cons, mem_cons] at ht
    have e1 : 0 < t1 - t0 := sub_pos.2 (ht.1 t1 (by simp))
    have e2 : 0 < t2 - t1 := sub_pos.2 (ht.2.1 t2 (by simp))
    have := gradTail_affine a c t0 t1 t2 f0 f1 f2 ts fs (by simpa using hl) ht'
    simp only [map_cons] at this ⊢
    simp only [gradRow]
    rw [this, gradFirst_affine _ _ _ _ _ _ _ e1 e2]

theorem verifyTimes_sorted : (verifyTimes (K := K)).Pairwise (· < ·) := by
  unfold verifyTimes
  rw [pairwise_map]
  refine pairwise_lt_range.imp fun {a b} h => ?_
  have : (a : K) < b := by exact_mod_cast h
  exact div_lt_div_of_pos_right this (by norm_num)

omit [LinearOrder K] [IsStrictOrderedRing K] in
theorem verifyTimes_length : (verifyTimes (K := K)).length = 20 := by simp [verifyTimes]

end Grad

section Ddt

variable [Field K]

theorem ddt_mat {t : List K} {k : Nat} {rows : List (List K)} {D : Snap K}
    (h : (Snap.mat k rows).ddt t = .ok D) :
    k = t.length ∧ ∃ ds, D = .mat k ds ∧ rows.mapM (gradRow t) = .ok ds := by
  simp only [Snap.ddt, ddtNonuniform] at h
  split at h
  · cases h
  · rename_i hk
    simp only [ne_eq, not_not] at hk
    refine ⟨hk, ?_⟩
    cases hr : rows.mapM (gradRow t) with
    | error e => rw [hr] at h; cases h
    | ok ds =>
      rw [hr] at h
      exact ⟨ds, (Except.ok.inj h).symm, rfl⟩

theorem ddt_mat_of {t : List K} {rows ds : List (List K)} (h : rows.mapM (gradRow t) = .ok ds) :
    (Snap.mat t.length rows).ddt t = .ok (.mat t.length ds) := by
  simp only [Snap.ddt, ddtNonuniform, ne_eq, not_true_eq_false, if_false, h]
  rfl

theorem ddt_shaped {t : List K} {Y D : Snap K} {n : Nat} {c : Option Nat} (hY : Y.Shaped n c)
    (h : Y.ddt t = .ok D) : D.Shaped n c := by
  cases Y with
  | vec xs => cases h
  | mat k rows =>
    obtain ⟨hk, ds, rfl, hm⟩ := ddt_mat h
    have hf := mapM_ok_forall2.1 hm
    refine ⟨?_, ?_, hY.cols⟩
    · intro d hd
      obtain ⟨row, hr, hg⟩ := forall2_right_mem hf hd
      rw [length_gradRow ((hY.wf row hr).trans hk) hg, hk]
    · have := mapM_ok_length hm
      simp only [Snap.len]
      rw [this]
      exact hY.len

end Ddt

/-! ### Arrays in parts -/

theorem mapM_flatten {α β : Type} (f : α → Except Err β) (ps : List (List α)) (qs : List (List β)) :
    ps.mapM (fun p => p.mapM f) = .ok qs → ps.flatten.mapM f = .ok qs.flatten := by
  intro h
  rw [mapM_ok_forall2] at h
  induction h with
  | nil => rfl
  | cons h1 _ ih =>
    rw [flatten_cons, flatten_cons, mapM_append, h1, ih]
    rfl

theorem mapM_flatten_inv {α β : Type} (f : α → Except Err β) (ps : List (List α)) (ds : List β)
    (h : ps.flatten.mapM f = .ok ds) :
    ∃ qs, ps.mapM (fun p => p.mapM f) = .ok qs ∧ ds = qs.flatten ∧ qs.map length = ps.map length := by
  induction ps generalizing ds with
  | nil =>
    refine ⟨[], rfl, ?_, rfl⟩
    simpa [pure, Except.pure, eq_comm] using h
  | cons p ps ih =>
    rw [flatten_cons, mapM_append] at h
    cases h1 : p.mapM f with
    | error e => rw [h1] at h; cases h
    | ok q =>
      rw [h1] at h
      cases h2 : ps.flatten.mapM f with
      | error e => rw [h2] at h; cases h
      | ok es =>
        rw [h2] at h
        obtain ⟨qs, e1, e2, e3⟩ := ih es h2
        refine ⟨q :: qs, by rw [mapM_cons, h1, e1]; rfl, ?_, ?_⟩
        · rw [flatten_cons, ← e2]
          exact (Except.ok.inj h).symm
        · rw [map_cons, map_cons, e3, mapM_ok_length h1]

theorem joined_ddt [Field K] {t : List K} {ns : List Nat} {Ps : List (Snap K)} {Y D : Snap K}
    (hn : ns ≠ []) (hP : Joined (some t.length) ns Ps Y) (h : Y.ddt t = .ok D) :
    ∃ Ds, Joined (some t.length) ns Ds D ∧ Forall₂ (fun P E => P.ddt t = .ok E) Ps Ds := by
  rcases shaped_parts_cases hP.parts with ⟨hc, _⟩ | ⟨k, hc, ps, rfl, hps, hw⟩
  · cases hc
  · simp only [Option.some.injEq] at hc
    subst hc
    have hne : ps ≠ [] := by rintro rfl; exact hn hps.symm
    have c1 := hP.concat
    rw [concat_mat _ _ hne] at c1
    simp only [Except.ok.injEq] at c1
    subst c1
    obtain ⟨_, ds, rfl, hm⟩ := ddt_mat h
    obtain ⟨qs, e1, rfl, e3⟩ := mapM_flatten_inv _ _ _ hm
    have hf := mapM_ok_forall2.1 e1
    have hDs : Forall₂ (fun (P E : Snap K) => P.ddt t = .ok E) (ps.map (Snap.mat t.length))
        (qs.map (Snap.mat t.length)) := by
      rw [forall₂_map_left_iff, forall₂_map_right_iff]
      exact hf.imp fun p q hpq => ddt_mat_of hpq
    have hparts : Forall₂ (fun P n => Snap.Shaped P n (some t.length)) (qs.map (Snap.mat t.length)) ns := by
      rw [← hps, ← e3, forall₂_map_left_iff, forall₂_map_right_iff, forall₂_same]
      intro q hq
      obtain ⟨p, hp, hpq⟩ := forall2_right_mem hf hq
      have hs : (Snap.mat t.length p).Shaped p.length (some t.length) := ⟨hw p hp, rfl, rfl⟩
      have := ddt_shaped hs (ddt_mat_of hpq)
      rw [mapM_ok_length hpq]
      exact this
    obtain ⟨W, hW⟩ := joined_of_parts hparts hn
    have hqne : qs ≠ [] := by rintro rfl; simp at e3; exact hne e3
    have hc := hW.concat
    rw [concat_mat _ _ hqne] at hc
    rw [← Except.ok.inj hc] at hW
    exact ⟨_, hW, hDs⟩

theorem ddt_joined [Field K] {t : List K} {ns : List Nat} {Qs Es : List (Snap K)} {Z E : Snap K}
    (hn : ns ≠ []) (hQ : Joined (some t.length) ns Qs Z) (hE : Joined (some t.length) ns Es E)
    (h : Forall₂ (fun Q E => Q.ddt t = .ok E) Qs Es) : Z.ddt t = .ok E := by
  rcases shaped_parts_cases hQ.parts with ⟨hc, _⟩ | ⟨k, hc, ps, rfl, hps, hw⟩
  · cases hc
  · rcases shaped_parts_cases hE.parts with ⟨hc', _⟩ | ⟨k', hc', es, rfl, hes, hw'⟩
    · cases hc'
    · simp only [Option.some.injEq] at hc hc'
      subst hc hc'
      have hne : ps ≠ [] := by rintro rfl; exact hn hps.symm
      have hne' : es ≠ [] := by rintro rfl; exact hn hes.symm
      have c1 := hQ.concat
      have c2 := hE.concat
      rw [concat_mat _ _ hne] at c1
      rw [concat_mat _ _ hne'] at c2
      rw [← Except.ok.inj c1, ← Except.ok.inj c2]
      apply ddt_mat_of
      apply mapM_flatten
      rw [mapM_ok_forall2]
      rw [forall₂_map_left_iff, forall₂_map_right_iff] at h
      refine h.imp fun p q hpq => ?_
      obtain ⟨_, ds, h1, h2⟩ := ddt_mat hpq
      simp only [Snap.mat.injEq, true_and] at h1
      rw [h1]
      exact h2

/-! ### The single checks -/

section Checks

variable [Field K] [LinearOrder K] [IsStrictOrderedRing K]

theorem closeTo_self (x : K) : closeTo x x = true := by
  simp only [closeTo, sub_self, abs_zero, decide_eq_true_eq]
  exact add_nonneg (by positivity) (mul_nonneg (by positivity) (abs_nonneg _))

theorem closeList_self (xs : List K) : closeList xs xs = true := by
  induction xs with
  | nil => rfl
  | cons x xs ih => simp [closeList, closeTo_self, ih]

theorem closeRows_self (xs : List (List K)) : closeRows xs xs = true := by
  induction xs with
  | nil => rfl
  | cons x xs ih => simp [closeRows, closeList_self, ih]

theorem allClose_self (Y : Snap K) : allClose Y Y = true := by
  cases Y with
  | vec xs => exact closeList_self xs
  | mat k rows => exact closeRows_self rows

omit [Field K] [LinearOrder K] [IsStrictOrderedRing K] in
theorem sameDims_shaped {Y Z : Snap K} {n : Nat} {c : Option Nat} (h1 : Y.Shaped n c) (h2 : Z.Shaped n c) :
    sameDims Y Z = true := by
  have hl := h1.len.trans h2.len.symm
  have hc := h1.cols.trans h2.cols.symm
  cases Y <;> cases Z <;> simp_all [sameDims, Snap.len, Snap.cols]

omit [Field K] [LinearOrder K] [IsStrictOrderedRing K] in
theorem sameDims_self (Y : Snap K) : sameDims Y Y = true := by
  cases Y <;> simp [sameDims]

theorem minus_self (Y : Snap K) (hsqrt : sqrt 0 = 0) : ∃ D, Y.minus Y = .ok D ∧ D.norm sqrt = (0 : K) := by
  have hz : ∀ xs : List K, sumSq (vsub xs xs) = 0 := by
    intro xs
    induction xs with
    | nil => rfl
    | cons x xs ih =>
      simp only [sumSq, vsub, zipWith_cons_cons, map_cons, sum_cons, sub_self] at ih ⊢
      rw [ih]
      ring
  cases Y with
  | vec xs => exact ⟨.vec (vsub xs xs), by simp [Snap.minus], by simp [Snap.norm, hz, hsqrt]⟩
  | mat k rows =>
    refine ⟨.mat k (zipWith vsub rows rows), by simp [Snap.minus], ?_⟩
    have : ((zipWith vsub rows rows).map sumSq).sum = (0 : K) := by
      induction rows with
      | nil => rfl
      | cons r rows ih => rw [zipWith_cons_cons, map_cons, sum_cons, hz, ih, add_zero]
    simp only [Snap.norm, this, hsqrt]

theorem compareRel_self {sqrt : K → K} (hsqrt : sqrt 0 = 0) {tol : K} (ht : 0 ≤ tol) (E : Snap K) :
    compareRel sqrt tol E E = .ok () := by
  obtain ⟨D, h1, h2⟩ := minus_self E hsqrt
  simp only [compareRel, h1, bind, Except.bind, h2, ratio]
  split
  · rfl
  · simp [Val.exceeds, insist, ht]

omit [LinearOrder K] [IsStrictOrderedRing K] in
theorem pyIndex_nat {n i : Nat} (h : i < n) : pyIndex n (i : Int) = .ok i := by
  simp only [pyIndex]
  rw [if_pos (by omega), if_pos (by omega)]
  simp

omit [LinearOrder K] [IsStrictOrderedRing K] in
theorem mapM_pyIndex {n : Nat} {locs : List Nat} (h : ∀ i ∈ locs, i < n) :
    locs.mapM (fun i : Nat => pyIndex n (i : Int)) = .ok locs := by
  rw [mapM_ok_forall2, forall₂_same]
  exact fun i hi => pyIndex_nat (h i hi)

omit [LinearOrder K] [IsStrictOrderedRing K] in
theorem atLocs_ok {Y : Snap K} {locs : List Nat} (h : ∀ i ∈ locs, i < Y.len) :
    Y.atLocs locs = .ok (Y.pick locs) := by
  simp only [Snap.atLocs, mapM_pyIndex h, bind, Except.bind, pure, Except.pure]

omit [Field K] [LinearOrder K] [IsStrictOrderedRing K] in
theorem locate_nat {n : Nat} {locs : List Nat} (h : ∀ i ∈ locs, i < n) :
    locate n (.idx (locs.map fun i : Nat => (i : Int))) = .ok locs := by
  simp only [locate, bind, Except.bind]
  rw [mapM_ok_forall2, forall₂_map_left_iff, forall₂_same]
  exact fun i hi => pyIndex_nat (h i hi)

end Checks

end Opinf
