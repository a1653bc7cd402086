import Verif.Lemmas.Verify
import Verif.Lemmas.FiniteDiff
import Verif.Props.FiniteDiff
import Verif.Model.DdtCall

/-!
# Entries of finite difference estimates
-/

namespace Opinf

open List

variable {K : Type}

section

variable [Field K]

theorem gradTail_at (t0 t1 t2 f0 f1 f2 : K) (ts fs : List K) (h : fs.length = ts.length) :
    (∀ j, j ≤ ts.length → (gradTail (t0 :: t1 :: t2 :: ts) (f0 :: f1 :: f2 :: fs)).getD j 0 =
      gradInterior ((t0 :: t1 :: t2 :: ts).getD (j + 1) 0 - (t0 :: t1 :: t2 :: ts).getD j 0)
        ((t0 :: t1 :: t2 :: ts).getD (j + 2) 0 - (t0 :: t1 :: t2 :: ts).getD (j + 1) 0)
        ((f0 :: f1 :: f2 :: fs).getD j 0) ((f0 :: f1 :: f2 :: fs).getD (j + 1) 0)
        ((f0 :: f1 :: f2 :: fs).getD (j + 2) 0)) ∧
    (gradTail (t0 :: t1 :: t2 :: ts) (f0 :: f1 :: f2 :: fs)).getD (ts.length + 1) 0 =
      gradLast ((t0 :: t1 :: t2 :: ts).getD (ts.length + 1) 0 - (t0 :: t1 :: t2 :: ts).getD ts.length 0)
        ((t0 :: t1 :: t2 :: ts).getD (ts.length + 2) 0 - (t0 :: t1 :: t2 :: ts).getD (ts.length + 1) 0)
        ((f0 :: f1 :: f2 :: fs).getD ts.length 0) ((f0 :: f1 :: f2 :: fs).getD (ts.length + 1) 0)
        ((f0 :: f1 :: f2 :: fs).getD (ts.length + 2) 0) := by
  induction ts generalizing t0 t1 t2 f0 f1 f2 fs with
  | nil =>
    cases fs with
    | cons _ _ => simp at h
    | nil =>
      refine ⟨fun j hj => ?_, rfl⟩
      obtain rfl : j = 0 := Nat.le_zero.1 hj
      rfl
  | cons t3 ts ih =>
    cases fs with
    | nil => simp at h
    | cons f3 fs =>
      have step : gradTail (t0 :: t1 :: t2 :: t3 :: ts) (f0 :: f1 :: f2 :: f3 :: fs) =
          gradInterior (t1 - t0) (t2 - t1) f0 f1 f2 :: gradTail (t1 :: t2 :: t3 :: ts) (f1 :: f2 :: f3 :: fs) := by
        rw [gradTail]
        simp
      obtain ⟨ih1, ih2⟩ := ih t1 t2 t3 f1 f2 f3 fs (by simpa using h)
      rw [step]
      constructor
      · intro j hj
        cases j with
        | zero => rfl
        | succ j => exact ih1 j (by simpa using hj)
      · exact ih2

/-- The entries of `np.gradient(f, t, edge_order=2)`. -/
theorem gradRow_at {t f g : List K} (hl : f.length = t.length) (h : gradRow t f = .ok g) :
    3 ≤ t.length ∧ g.length = t.length ∧
    g.getD 0 0 = gradFirst (t.getD 1 0 - t.getD 0 0) (t.getD 2 0 - t.getD 1 0) (f.getD 0 0) (f.getD 1 0)
      (f.getD 2 0) ∧
    (∀ j, j + 2 < t.length → g.getD (j + 1) 0 = gradInterior (t.getD (j + 1) 0 - t.getD j 0)
      (t.getD (j + 2) 0 - t.getD (j + 1) 0) (f.getD j 0) (f.getD (j + 1) 0) (f.getD (j + 2) 0)) ∧
    ∀ m, t.length = m + 3 → g.getD (m + 2) 0 = gradLast (t.getD (m + 1) 0 - t.getD m 0)
      (t.getD (m + 2) 0 - t.getD (m + 1) 0) (f.getD m 0) (f.getD (m + 1) 0) (f.getD (m + 2) 0) := by
  refine ⟨?_, length_gradRow hl h, ?_⟩
  · match t, h with
    | [], h => simp [gradRow] at h
    | [_], h => simp [gradRow] at h
    | [_, _], h => simp [gradRow] at h
    | _ :: _ :: _ :: _, _ => simp
  · match t, f, hl, h with
    | [], _, _, h => simp [gradRow] at h
    | [_], _, _, h => simp [gradRow] at h
    | [_, _], _, _, h => simp [gradRow] at h
    | _ :: _ :: _ :: _, [], hl, _ => simp at hl
    | _ :: _ :: _ :: _, [_], hl, _ => simp at hl
    | _ :: _ :: _ :: _, [_, _], hl, _ => simp at hl
    | t0 :: t1 :: t2 :: ts, f0 :: f1 :: f2 :: fs, hl, h =>
      simp only [gradRow, Except.ok.injEq] at h
      subst h
      obtain ⟨h1, h2⟩ := gradTail_at t0 t1 t2 f0 f1 f2 ts fs (by simpa using hl)
      refine ⟨rfl, fun j hj => h1 j (by simpa using hj), fun m hm => ?_⟩
      obtain rfl : ts.length = m := by simpa using hm
      exact h2

theorem gradRow_defined {t f : List K} (hl : f.length = t.length) (h3 : 3 ≤ t.length) :
    ∃ g, gradRow t f = .ok g := by
  match t, f, hl, h3 with
  | t0 :: t1 :: t2 :: ts, f0 :: f1 :: f2 :: fs, _, _ => exact ⟨_, rfl⟩

/-- A uniform time domain. -/
theorem uniformDomain_at [DecidableEq K] {t : List K} {dt : K} (h : uniformDomain t = .ok dt) {j : Nat}
    (hj : j + 1 < t.length) : t.getD (j + 1) 0 - t.getD j 0 = dt := by
  have hz : (zipWith (fun a b => b - a) t t.tail)[j]? = some (t.getD (j + 1) 0 - t.getD j 0) := by
    rw [getElem?_zipWith, getElem?_tail]
    simp only [getD_eq_getElem?_getD, getElem?_eq_getElem hj, getElem?_eq_getElem (by omega : j < t.length),
      Option.getD_some]
  rw [uniformDomain] at h
  cases hl : zipWith (fun a b => b - a) t t.tail with
  | nil => rw [hl] at hz; simp at hz
  | cons d ds =>
    rw [hl] at h hz
    simp only at h
    split at h
    · rename_i hall
      cases h
      have hm := mem_of_getElem? hz
      rcases mem_cons.1 hm with h1 | h1
      · exact h1
      · simpa using (all_eq_true.1 hall) _ h1
    · cases h

theorem dot3 (a b c x y z : K) (rest : List K) : dot [a, b, c] (x :: y :: z :: rest) = a * x + (b * y + c * z) := by
  simp [dot_cons]

theorem drop3 {f : List K} {i : Nat} (h : i + 2 < f.length) :
    f.drop i = f.getD i 0 :: f.getD (i + 1) 0 :: f.getD (i + 2) 0 :: f.drop (i + 3) := by
  rw [drop_eq_getElem_cons (by omega), drop_eq_getElem_cons (i := i + 1) (by omega),
    drop_eq_getElem_cons (i := i + 2) (by omega)]
  simp only [getD_eq_getElem?_getD, getElem?_eq_getElem (by omega : i < f.length),
    getElem?_eq_getElem (by omega : i + 1 < f.length), getElem?_eq_getElem h, Option.getD_some]

/-- The entries of the second-order `ddt_uniform`. -/
theorem uniformRow_at [DecidableEq K] {f : List K} (dt : K) (h3 : 3 ≤ f.length) :
    (ddtUniformRow [scaled dt [-3, 4, -1] 2] (scaled dt [-1, 0, 1] 2) f).length = f.length ∧
    (ddtUniformRow [scaled dt [-3, 4, -1] 2] (scaled dt [-1, 0, 1] 2) f).getD 0 0 =
      (-3 * f.getD 0 0 + 4 * f.getD 1 0 - f.getD 2 0) / (2 * dt) ∧
    (∀ j, j + 2 < f.length → (ddtUniformRow [scaled dt [-3, 4, -1] 2] (scaled dt [-1, 0, 1] 2) f).getD (j + 1) 0 =
      (f.getD (j + 2) 0 - f.getD j 0) / (2 * dt)) ∧
    ∀ m, f.length = m + 3 → (ddtUniformRow [scaled dt [-3, 4, -1] 2] (scaled dt [-1, 0, 1] 2) f).getD (m + 2) 0 =
      (f.getD m 0 - 4 * f.getD (m + 1) 0 + 3 * f.getD (m + 2) 0) / (2 * dt) := by
  have hw : (scaled dt [-1, 0, 1] 2).length = 3 := rfl
  have e : ddtUniformRow [scaled dt [-3, 4, -1] 2] (scaled dt [-1, 0, 1] 2) f =
      dot (f.take 3) (scaled dt [-3, 4, -1] 2) ::
        ((range (f.length - 2)).map (fun i => dot (scaled dt [-1, 0, 1] 2) (f.drop i)) ++
          [dot (f.drop (f.length - 3)) (negRev (scaled dt [-3, 4, -1] 2))]) := by
    simp only [ddtUniformRow, map_cons, map_nil, reverse_cons, reverse_nil, nil_append, singleton_append, hw,
      Nat.reduceSub, cons_append]
    rw [fdLoop_eq _ _ _ _ _ (by simp) (by rw [hw]; omega)]
    congr 2
    apply map_congr_left
    intro i hi
    have : i < f.length - 2 := by simpa using hi
    simp [getD_eq_getElem?_getD, this]
  rw [e]
  refine ⟨by simp; omega, ?_, fun j hj => ?_, fun m hm => ?_⟩
  · have := drop3 (f := f) (i := 0) (by omega)
    rw [drop_zero] at this
    rw [getD_cons_zero]
    conv_lhs => rw [this]
    simp only [take_succ_cons, take_zero, scaled, map_cons, map_nil]
    rw [dot_comm', dot3]
    push_cast
    ring
  · rw [getD_cons_succ, getD_eq_getElem?_getD, getElem?_append_left (by simp; omega), getElem?_map,
      getElem?_range (by omega), Option.map_some, Option.getD_some, drop3 hj]
    simp only [scaled, map_cons, map_nil]
    rw [dot3]
    push_cast
    ring
  · rw [getD_cons_succ, getD_eq_getElem?_getD, getElem?_append_right (by simp; omega)]
    simp only [length_map, length_range, show m + 1 - (f.length - 2) = 0 by omega, getElem?_cons_zero,
      Option.getD_some]
    rw [show f.length - 3 = m by omega, drop3 (by omega), drop_eq_nil_of_le (by omega)]
    rw [negRev_scaled]
    simp only [scaled, map_cons, map_nil, reverse_cons, reverse_nil, nil_append, cons_append]
    rw [dot_comm', dot3]
    push_cast
    ring

end

end Opinf
