import Verif.Model.DdtNonuniform
import Verif.Lemmas.FiniteDiff
import Verif.Lemmas.Grad
import Verif.Lemmas.Verify
import Mathlib.Tactic.Ring
import Mathlib.Tactic.FieldSimp

/-! # Derivative estimators work row by row, linearly, and annihilate constants -/

namespace Opinf

open List

variable {K : Type}

/-- On rows with `k` entries, `keep` and `diff` are linear and give rows with `w` entries; `keep` leaves constants as
they are and `diff` makes them zero. -/
structure RowRule [Field K] (k w : Nat) (keep diff : List K → List K) : Prop where
  keep_length : ∀ x, x.length = k → (keep x).length = w
  diff_length : ∀ x, x.length = k → (diff x).length = w
  keep_lin : ∀ x y h, x.length = k → y.length = k →
    keep (vadd x (vsmul h y)) = vadd (keep x) (vsmul h (keep y))
  diff_lin : ∀ x y h, x.length = k → y.length = k →
    diff (vadd x (vsmul h y)) = vadd (diff x) (vsmul h (diff y))
  keep_const : ∀ b, keep (replicate k b) = replicate w b
  diff_const : ∀ b, diff (replicate k b) = replicate w 0

/-! ### Linear functions of rows -/

/-- A linear function of rows with `k` entries. -/
structure LinRow [Field K] (k w : Nat) (f : List K → List K) : Prop where
  length : ∀ x, x.length = k → (f x).length = w
  lin : ∀ x y h, x.length = k → y.length = k → f (vadd x (vsmul h y)) = vadd (f x) (vsmul h (f y))

variable [Field K]

theorem take_axpy (m : Nat) (x y : List K) (h : K) :
    (vadd x (vsmul h y)).take m = vadd (x.take m) (vsmul h (y.take m)) := by
  simp only [vadd, vsmul, take_zipWith, map_take]

theorem drop_axpy (m : Nat) (x y : List K) (h : K) :
    (vadd x (vsmul h y)).drop m = vadd (x.drop m) (vsmul h (y.drop m)) := by
  simp only [vadd, vsmul, drop_zipWith, map_drop]

theorem dot_axpy (c x y : List K) (h : K) (hl : x.length = y.length) :
    dot c (vadd x (vsmul h y)) = dot c x + h * dot c y := by
  induction c generalizing x y with
  | nil => simp [dot]
  | cons a c ih =>
    cases x with
    | nil => cases y with
      | nil => simp [dot, vadd]
      | cons _ _ => simp at hl
    | cons b x => cases y with
      | nil => simp at hl
      | cons d y =>
        have := ih x y (by simpa using hl)
        simp only [dot, vadd, vsmul, map_cons, zipWith_cons_cons, sum_cons] at this ⊢
        rw [this]; ring

theorem dot_comm_list (x c : List K) : dot x c = dot c x := by
  simp only [dot]
  rw [zipWith_comm]
  simp only [mul_comm]

theorem map_axpy {ι : Type} (l : List ι) (f g : ι → K) (h : K) :
    l.map (fun i => f i + h * g i) = vadd (l.map f) (vsmul h (l.map g)) := by
  simp only [vadd, vsmul, map_map, zipWith_map, zipWith_self, Function.comp_apply]

theorem append_axpy (a b c d : List K) (h : K) (hl : a.length = b.length) :
    vadd a (vsmul h b) ++ vadd c (vsmul h d) = vadd (a ++ c) (vsmul h (b ++ d)) := by
  simp only [vadd, vsmul, map_append]
  rw [zipWith_append (by simpa using hl)]

theorem dot_replicate (c : List K) (m : Nat) (b : K) (h : c.length ≤ m) :
    dot c (replicate m b) = c.sum * b := by
  induction c generalizing m with
  | nil => simp [dot]
  | cons a c ih =>
    cases m with
    | zero => simp at h
    | succ m =>
      have := ih m (by simpa using h)
      simp only [dot, replicate_succ, zipWith_cons_cons, sum_cons] at this ⊢
      rw [this]; ring

theorem LinRow.append {k w v : Nat} {f g : List K → List K} (hf : LinRow k w f) (hg : LinRow k v g) :
    LinRow k (w + v) fun x => f x ++ g x where
  length x hx := by rw [length_append, hf.length x hx, hg.length x hx]
  lin x y h hx hy := by
    rw [hf.lin x y h hx hy, hg.lin x y h hx hy,
      append_axpy _ _ _ _ _ ((hf.length x hx).trans (hf.length y hy).symm)]

theorem LinRow.of_eq {k w : Nat} {f g : List K → List K} (hf : LinRow k w f)
    (h : ∀ x, x.length = k → g x = f x) : LinRow k w g where
  length x hx := by rw [h x hx, hf.length x hx]
  lin x y r hx hy := by
    rw [h x hx, h y hy, ← hf.lin x y r hx hy]
    exact h _ (by simp [vadd, vsmul, hx, hy])

/-- Several inner products with parts of the row. -/
theorem LinRow.dots {ι : Type} (k : Nat) (l : List ι) (c : ι → List K) (a b : ι → Nat) :
    LinRow k l.length fun x => l.map fun i => dot (c i) ((x.drop (a i)).take (b i)) where
  length x _ := by simp
  lin x y h hx hy := by
    rw [← map_axpy]
    apply map_congr_left
    intro i _
    rw [drop_axpy, take_axpy, dot_axpy _ _ _ _ (by simp [hx, hy])]

/-- Part of a row. -/
theorem LinRow.window (k a b : Nat) (h : a ≤ b) (hb : b ≤ k) : LinRow k (b - a) fun x : List K => (x.take b).drop a where
  length x hx := by simp [hx, hb]
  lin x y h _ _ := by rw [take_axpy, drop_axpy]

/-! ### Uniform time steps -/

variable [DecidableEq K]

/-- The loop over the coefficients. -/
theorem fdLoop_lin (k : Nat) (cs : List K) (hc : cs ≠ []) (h : cs.length - 1 ≤ k) :
    LinRow k (k - (cs.length - 1)) fun row =>
      fdLoop row (k - (cs.length - 1)) cs 0 (replicate (k - (cs.length - 1)) 0) := by
  have hpos : 0 < cs.length := length_pos_of_ne_nil hc
  have := LinRow.dots k (range (k - (cs.length - 1))) (fun _ => cs) id (fun _ => k)
  rw [length_range] at this
  refine this.of_eq ?_
  intro x hx
  rw [fdLoop_eq _ _ _ _ _ (by simp) (by omega)]
  apply map_congr_left
  intro i hi
  simp only [getD_eq_getElem?_getD, getElem?_replicate]
  rw [take_of_length_le (by simp [hx])]
  split <;> simp

theorem fdLoop_const (k : Nat) (cs : List K) (hc : cs ≠ []) (h : cs.length - 1 ≤ k) (hs : cs.sum = 0) (b : K) :
    fdLoop (replicate k b) (k - (cs.length - 1)) cs 0 (replicate (k - (cs.length - 1)) 0) =
      replicate (k - (cs.length - 1)) 0 := by
  have hpos : 0 < cs.length := length_pos_of_ne_nil hc
  rw [fdLoop_eq _ _ _ _ _ (by simp) (by simp; omega)]
  rw [eq_replicate_iff]
  refine ⟨by simp, ?_⟩
  intro x hx
  obtain ⟨i, hi, rfl⟩ := mem_map.1 hx
  rw [mem_range] at hi
  rw [drop_replicate, dot_replicate _ _ _ (by omega), hs]
  simp only [getD_eq_getElem?_getD, getElem?_replicate]
  split <;> simp

theorem scaled_sum (dt : K) (c : List Int) (den : Nat) (h : c.sum = 0) : (scaled dt c den).sum = 0 := by
  have : ∀ c : List Int, (scaled dt c den).sum = (c.sum : K) / ((den : K) * dt) := by
    intro c
    induction c with
    | nil => simp [scaled]
    | cons z c ih =>
      simp only [scaled, map_cons, sum_cons] at ih ⊢
      rw [ih]; push_cast; ring
  rw [this, h]; simp

/-- Columns kept by a scheme. -/
theorem cols_window (mode : Mode) (n k : Nat) (h : n ≤ k) (hn : 0 < n) (hm : mode = .ctr → n % 2 = 0) :
    ∃ a b, a ≤ b ∧ b ≤ k ∧ b - a = k - n ∧
      ∀ {α : Type} (x : List α), x.length = k → mode.cols n x = (x.take b).drop a := by
  cases mode with
  | fwd =>
    refine ⟨0, k - n, by omega, by omega, by omega, fun x hx => ?_⟩
    simp only [Mode.cols]
    rw [pySlice_fwd _ hn, hx, drop_zero]
  | bwd =>
    refine ⟨n, k, h, le_refl _, rfl, fun x hx => ?_⟩
    simp only [Mode.cols]
    rw [pySlice_bwd, take_of_length_le (by omega)]
  | ctr =>
    have := hm rfl
    refine ⟨n / 2, k - n / 2, by omega, by omega, by omega, fun x hx => ?_⟩
    simp only [Mode.cols, pySlice]
    have h1 : ¬ ((n / 2 : Nat) : Int) < 0 := by omega
    have h2 : -((n / 2 : Nat) : Int) < 0 := by omega
    simp only [h1, h2, if_true, if_false, hx]
    congr 2 <;> omega

/-- The forward, backward and central schemes. -/
theorem pure_rule (mode : Mode) (dt : K) (c : List Int) (den k : Nat) (hk : c.length - 1 ≤ k) (hn : 0 < c.length - 1)
    (hm : mode = .ctr → (c.length - 1) % 2 = 0) (hs : c.sum = 0) :
    RowRule k (k - (c.length - 1)) (mode.cols (c.length - 1)) fun row =>
      fdLoop row (k - (c.length - 1)) (scaled dt c den) 0 (replicate (k - (c.length - 1)) 0) := by
  obtain ⟨a, b, h1, h2, h3, h4⟩ := cols_window mode (c.length - 1) k hk hn hm
  have hW := (LinRow.window (K := K) k a b h1 h2).of_eq (g := mode.cols (c.length - 1)) fun x hx => h4 x hx
  rw [h3] at hW
  have hl : (scaled dt c den).length = c.length := by simp [scaled]
  have hne : scaled dt c den ≠ [] := by
    intro h0; rw [h0] at hl; simp at hl; omega
  have hL := fdLoop_lin k (scaled dt c den) hne (by omega)
  have hC := fdLoop_const k (scaled dt c den) hne (by omega) (scaled_sum dt c den hs)
  simp only [hl] at hL hC
  refine ⟨hW.length, hL.length, hW.lin, hL.lin, fun b' => ?_, hC⟩
  rw [h4 _ (by simp), take_replicate, drop_replicate]
  congr 1
  omega

theorem sum_negRev (c : List K) : (negRev c).sum = -c.sum := by
  rw [negRev]
  have : ∀ l : List K, (l.map (- ·)).sum = -l.sum := by
    intro l
    induction l with
    | nil => simp
    | cons a l ih => simp only [map_cons, sum_cons, ih]; ring
  rw [this, sum_reverse]

/-- The schemes that estimate the derivative at all times. -/
theorem mixed_rule (fronts : List (List K)) (ctr : List K) (k : Nat) (hc : ctr ≠ []) (hk : ctr.length ≤ k)
    (hs : ctr.sum = 0) (hf : ∀ c ∈ fronts, c.length = ctr.length ∧ c.sum = 0)
    (h2 : 2 * fronts.length = ctr.length - 1) : RowRule k k id (ddtUniformRow fronts ctr) := by
  have hpos : 0 < ctr.length := length_pos_of_ne_nil hc
  have hL := fdLoop_lin k ctr hc (by omega)
  have hF := LinRow.dots k fronts id (fun _ => 0) (fun _ => ctr.length)
  have hB := LinRow.dots k fronts.reverse negRev (fun _ => k - ctr.length) (fun _ => k)
  have hA := (hF.append hL).append hB
  have hw : fronts.length + (k - (ctr.length - 1)) + fronts.reverse.length = k := by
    rw [length_reverse]; omega
  rw [hw] at hA
  have hD : LinRow k k (ddtUniformRow fronts ctr) := by
    refine hA.of_eq ?_
    intro x hx
    simp only [ddtUniformRow, hx, drop_zero, id]
    congr 1
    · congr 1
      apply map_congr_left
      intro c _
      exact dot_comm_list _ _
    · apply map_congr_left
      intro c _
      rw [take_of_length_le (by simp [hx]), dot_comm_list]
  refine ⟨fun x hx => hx, hD.length, fun _ _ _ _ _ => rfl, hD.lin, fun _ => rfl, fun b => ?_⟩
  simp only [ddtUniformRow, length_replicate]
  rw [fdLoop_const k ctr hc (by omega) hs b]
  rw [eq_replicate_iff]
  refine ⟨by simp; omega, ?_⟩
  intro x hx
  rw [mem_append, mem_append] at hx
  rcases hx with (hx | hx) | hx
  · obtain ⟨c, hc', rfl⟩ := mem_map.1 hx
    rw [dot_comm_list, take_replicate, dot_replicate _ _ _ (by rw [(hf c hc').1]; omega), (hf c hc').2, zero_mul]
  · exact eq_of_mem_replicate hx
  · obtain ⟨c, hc', rfl⟩ := mem_map.1 hx
    have := hf c (mem_reverse.1 hc')
    rw [dot_comm_list, drop_replicate, dot_replicate _ _ _ (by simp [negRev, this.1]; omega), sum_negRev, this.2]
    simp

/-- The rule of a scheme for `k` snapshots. -/
theorem scheme_rule (s : Scheme) (dt : K) (k : Nat) (A : Mat K) (U : Option (Mat K)) (x : Mat K × Mat K × Option (Mat K))
    (hA : A.ncols = k) (h : s.run A dt U = .ok x) :
    ∃ w keep diff, RowRule k w keep diff ∧ ∀ B : Mat K, B.ncols = k →
      s.run B dt U = .ok (⟨B.nrows, w, B.rows.map keep⟩, ⟨B.nrows, w, B.rows.map diff⟩, x.2.2) := by
  have pure : ∀ mode c den, s.table = some (mode, c, den) → 0 < c.length - 1 →
      (mode = .ctr → (c.length - 1) % 2 = 0) → c.sum = 0 →
      ∃ w keep diff, RowRule k w keep diff ∧ ∀ B : Mat K, B.ncols = k →
      s.run B dt U = .ok (⟨B.nrows, w, B.rows.map keep⟩, ⟨B.nrows, w, B.rows.map diff⟩, x.2.2) := by
    intro mode c den ht hn hm hs
    have hl : (scaled dt c den).length = c.length := by simp [scaled]
    simp only [Scheme.run, ht, finiteDifference, hl, hA] at h
    by_cases hk : k < c.length - 1
    · rw [if_pos hk] at h; cases h
    · rw [if_neg hk] at h
      cases h
      refine ⟨_, _, _, pure_rule mode dt c den k (by omega) hn hm hs, fun B hB => ?_⟩
      simp only [Scheme.run, ht, finiteDifference, hl, hB, if_neg hk]
      rfl
  have mixed : ∀ fronts den ctr mode cc cden, s.table = none → frontTable s.order = some (fronts, den, ctr) →
      ctr.table = some (mode, cc, cden) → cc.length = s.order + 1 → cc.sum = 0 →
      (∀ c ∈ fronts, c.length = cc.length ∧ c.sum = 0) → 2 * fronts.length = cc.length - 1 →
      ∃ w keep diff, RowRule k w keep diff ∧ ∀ B : Mat K, B.ncols = k →
      s.run B dt U = .ok (⟨B.nrows, w, B.rows.map keep⟩, ⟨B.nrows, w, B.rows.map diff⟩, x.2.2) := by
    intro fronts den ctr mode cc cden ht hf hc ho hs hfs h2
    simp only [Scheme.run, ht, ddtUniform, hf, hc, hA] at h
    by_cases hk : k < s.order + 1
    · rw [if_pos hk] at h; cases h
    · rw [if_neg hk] at h
      cases h
      refine ⟨k, id, _, mixed_rule (fronts.map fun c => scaled dt c den) (scaled dt cc cden) k ?_ ?_ ?_ ?_ ?_,
        fun B hB => ?_⟩
      · intro h0
        have := congrArg List.length h0
        simp [scaled] at this
        rw [this] at ho
        simp at ho
      · simp only [scaled, length_map]; omega
      · exact scaled_sum dt cc cden hs
      · intro c hc'
        obtain ⟨d, hd, rfl⟩ := mem_map.1 hc'
        exact ⟨by simp [scaled, (hfs d hd).1], scaled_sum dt d den (hfs d hd).2⟩
      · simp only [scaled, length_map]; exact h2
      · simp only [Scheme.run, ht, ddtUniform, hf, hc, hB, if_neg hk, bind, Except.bind, pure, Except.pure, map_id]
        subst hB
        rfl
  cases s
  case ord2 => exact mixed [[-3, 4, -1]] 2 .ctr2 _ _ _ rfl rfl rfl rfl rfl (by decide) rfl
  case ord4 =>
    exact mixed [[-25, 48, -36, 16, -3], [-3, -10, 18, -6, 1]] 12 .ctr4 _ _ _ rfl rfl rfl rfl rfl (by decide) rfl
  case ord6 =>
    exact mixed [[-147, 360, -450, 400, -225, 72, -10], [-10, -77, 150, -100, 50, -15, 2],
      [2, -24, -35, 80, -30, 8, -1]] 60 .ctr6 _ _ _ rfl rfl rfl rfl rfl (by decide) rfl
  all_goals exact pure _ _ _ rfl (by decide) (by decide) rfl

/-! ### Estimators -/

/-- An estimator with one kind of additional result `ι` (the inputs, or nothing): one rule for all rows. -/
def RowWise {ι : Type} (est : Snap K → Except Err (Snap K × Snap K × ι)) : Prop :=
  ∀ k rows x, rows ≠ [] → (∀ row ∈ rows, row.length = k) → est (.mat k rows) = .ok x →
    ∃ w keep diff, RowRule k w keep diff ∧ ∀ rows' : List (List K), (∀ row ∈ rows', row.length = k) →
      est (.mat k rows') = .ok (.mat w (rows'.map keep), .mat w (rows'.map diff), x.2.2)

/-- `estimate(states)`, in the form of `RowWise`. -/
def DdtI.plain (E : DdtI K) (Y : Snap K) : Except Err (Snap K × Snap K × Unit) :=
  (E.estimate Y).map fun x => (x.1, x.2, ())

/-- An estimator that treats all rows alike, with and without inputs. -/
structure DdtI.RowWise (E : DdtI K) : Prop where
  plain : Opinf.RowWise E.plain
  inputs : ∀ U, Opinf.RowWise fun Y => E.estimateWith Y U

/-- The estimate with inputs of one kind. -/
def fdWith (s : Scheme) (dt : K) (k : Nat) (rows : List (List K)) (V : InputArr K) :
    Except Err (Snap K × Snap K × Snap K) :=
  match s.estimate dt ⟨rows.length, k, rows⟩ (some V) with
  | .error e => .error e
  | .ok (Y, Z, some W) => .ok (Y.toSnap, Z.toSnap, W.toSnap)
  | .ok (_, _, none) => .error .value

theorem fd_rowWise (s : Scheme) (dt : K) : (fdDdt s dt).RowWise where
  plain k rows x _ hr h := by
    simp only [DdtI.plain, fdDdt, Scheme.estimate] at h
    cases hs : s.run ⟨rows.length, k, rows⟩ dt none with
    | error e => rw [hs] at h; cases h
    | ok y =>
      obtain ⟨w, keep, diff, h1, h2⟩ := scheme_rule s dt k _ _ y rfl hs
      refine ⟨w, keep, diff, h1, fun rows' hr' => ?_⟩
      simp only [DdtI.plain, fdDdt, Scheme.estimate, h2 ⟨rows'.length, k, rows'⟩ rfl]
      rfl
  inputs U k rows x _ hr h := by
    obtain ⟨V, hV⟩ : ∃ V, ∀ rows', (fdDdt s dt).estimateWith (.mat k rows') U = fdWith s dt k rows' V := by
      cases U with
      | vec u => exact ⟨.vec u, fun _ => rfl⟩
      | mat l us => exact ⟨.mat ⟨us.length, l, us⟩, fun _ => rfl⟩
    simp only [hV] at h ⊢
    simp only [fdWith, Scheme.estimate] at h ⊢
    by_cases hn : V.toMat.ncols ≠ k
    · simp only [if_pos hn] at h; cases h
    · simp only [if_neg hn] at h ⊢
      cases hs : s.run ⟨rows.length, k, rows⟩ dt (some V.toMat) with
      | error e => rw [hs] at h; cases h
      | ok y =>
        obtain ⟨w, keep, diff, h1, h2⟩ := scheme_rule s dt k _ _ y rfl hs
        refine ⟨w, keep, diff, h1, fun rows' hr' => ?_⟩
        obtain ⟨y1, y2, y3⟩ := y
        simp only [h2 ⟨rows'.length, k, rows'⟩ rfl]
        rw [hs] at h
        cases y3 with
        | none => cases h
        | some W => cases h; rfl

/-! ### Any time steps -/

/-- The derivatives of one row, if there are any. -/
def gradEst (t f : List K) : List K :=
  match gradRow t f with
  | .ok g => g
  | .error _ => []

omit [DecidableEq K] in
theorem gradRow_gradEst {t f : List K} (hl : f.length = t.length) (h3 : 3 ≤ t.length) :
    gradRow t f = .ok (gradEst t f) := by
  obtain ⟨g, hg⟩ := gradRow_defined hl h3
  simp only [gradEst, hg]

omit [DecidableEq K] in
theorem gradTail_step (t0 t1 t2 t3 f0 f1 f2 f3 : K) (ts fs : List K) :
    gradTail (t0 :: t1 :: t2 :: t3 :: ts) (f0 :: f1 :: f2 :: f3 :: fs) =
      gradInterior (t1 - t0) (t2 - t1) f0 f1 f2 :: gradTail (t1 :: t2 :: t3 :: ts) (f1 :: f2 :: f3 :: fs) := by
  rw [gradTail]
  simp

omit [DecidableEq K] in
theorem gradTail_axpy (h t0 t1 t2 f0 f1 f2 g0 g1 g2 : K) (ts fs gs : List K) (hf : fs.length = ts.length)
    (hg : gs.length = ts.length) :
    gradTail (t0 :: t1 :: t2 :: ts) (vadd (f0 :: f1 :: f2 :: fs) (vsmul h (g0 :: g1 :: g2 :: gs))) =
      vadd (gradTail (t0 :: t1 :: t2 :: ts) (f0 :: f1 :: f2 :: fs))
        (vsmul h (gradTail (t0 :: t1 :: t2 :: ts) (g0 :: g1 :: g2 :: gs))) := by
  induction ts generalizing t0 t1 t2 f0 f1 f2 g0 g1 g2 fs gs with
  | nil =>
    simp only [vadd, vsmul, map_cons, zipWith_cons_cons, gradTail, map_nil, zipWith_nil_left, cons.injEq, and_true]
    constructor
    · unfold gradInterior; ring
    · unfold gradLast; ring
  | cons t3 ts ih =>
    cases fs with
    | nil => simp at hf
    | cons f3 fs => cases gs with
      | nil => simp at hg
      | cons g3 gs =>
        have := ih t1 t2 t3 f1 f2 f3 g1 g2 g3 fs gs (by simpa using hf) (by simpa using hg)
        simp only [vadd, vsmul, map_cons, zipWith_cons_cons] at this ⊢
        rw [gradTail_step, gradTail_step t0 t1 t2 t3 f0, gradTail_step t0 t1 t2 t3 g0, this]
        simp only [map_cons, zipWith_cons_cons, cons.injEq, and_true]
        unfold gradInterior; ring

omit [DecidableEq K] in
theorem gradRow_axpy {t x y g g' : List K} (h : K) (hx : x.length = t.length) (hy : y.length = t.length)
    (e1 : gradRow t x = .ok g) (e2 : gradRow t y = .ok g') :
    gradRow t (vadd x (vsmul h y)) = .ok (vadd g (vsmul h g')) := by
  have h3 := (gradRow_at hx e1).1
  match t, x, y, h3, hx, hy with
  | t0 :: t1 :: t2 :: ts, f0 :: f1 :: f2 :: fs, g0 :: g1 :: g2 :: gs, _, hx, hy =>
    have := gradTail_axpy h t0 t1 t2 f0 f1 f2 g0 g1 g2 ts fs gs (by simpa using hx) (by simpa using hy)
    simp only [gradRow, Except.ok.injEq] at e1 e2
    subst e1 e2
    simp only [vadd, vsmul, map_cons, zipWith_cons_cons] at this ⊢
    simp only [gradRow, this, Except.ok.injEq, cons.injEq, and_true]
    unfold gradFirst; ring

end Opinf

namespace Opinf

open List

variable {K : Type} [Field K] [LinearOrder K] [IsStrictOrderedRing K]

/-- The rule of the differences for any increasing times. -/
theorem grad_rule {t : List K} (ht : t.Pairwise (· < ·)) (h3 : 3 ≤ t.length) :
    RowRule t.length t.length id (gradEst t) where
  keep_length _ h := h
  diff_length x hx := (gradRow_at hx (gradRow_gradEst hx h3)).2.1
  keep_lin _ _ _ _ _ := rfl
  diff_lin x y h hx hy := by
    have e := gradRow_axpy h hx hy (gradRow_gradEst hx h3) (gradRow_gradEst hy h3)
    rw [gradRow_gradEst (by simp [vadd, vsmul, hx, hy]) h3] at e
    exact Except.ok.inj e
  keep_const _ := rfl
  diff_const b := by
    have hl : (replicate t.length (0 : K)).length = t.length := by simp
    have e := gradRow_affine 0 b ht hl (gradRow_gradEst hl h3)
    have hm : (replicate t.length (0 : K)).map (0 * · + b) = replicate t.length b := by simp
    rw [hm, gradRow_gradEst (by simp) h3] at e
    rw [Except.ok.inj e, eq_replicate_iff]
    refine ⟨by simp only [length_map]; exact (gradRow_at hl (gradRow_gradEst hl h3)).2.1, ?_⟩
    intro x hx
    obtain ⟨y, -, rfl⟩ := mem_map.1 hx
    exact zero_mul _

omit [LinearOrder K] [IsStrictOrderedRing K] in
theorem ddtNonuniform_rows {t : List K} (h3 : 3 ≤ t.length) (rows : List (List K))
    (hr : ∀ row ∈ rows, row.length = t.length) :
    ddtNonuniform t ⟨rows.length, t.length, rows⟩ = .ok ⟨rows.length, t.length, rows.map (gradEst t)⟩ := by
  have : rows.mapM (gradRow t) = .ok (rows.map (gradEst t)) := by
    induction rows with
    | nil => rfl
    | cons row rows ih =>
      rw [mapM_cons, gradRow_gradEst (hr row (by simp)) h3, ih fun r h => hr r (by simp [h])]
      rfl
  simp [ddtNonuniform, this, bind, Except.bind, pure, Except.pure]

omit [LinearOrder K] [IsStrictOrderedRing K] in
/-- Estimates exist only for three or more aligned snapshots. -/
theorem ddtNonuniform_needs {t : List K} {k : Nat} {rows : List (List K)} {D : Mat K} (hne : rows ≠ [])
    (hr : ∀ row ∈ rows, row.length = k) (h : ddtNonuniform t ⟨rows.length, k, rows⟩ = .ok D) :
    k = t.length ∧ 3 ≤ t.length := by
  simp only [ddtNonuniform] at h
  by_cases hk : k ≠ t.length
  · rw [if_pos hk] at h; cases h
  · rw [if_neg hk] at h
    rw [not_not] at hk
    refine ⟨hk, ?_⟩
    cases rows with
    | nil => exact absurd rfl hne
    | cons row rows =>
      rw [mapM_cons] at h
      cases hg : gradRow t row with
      | error e => rw [hg] at h; cases h
      | ok g => exact (gradRow_at ((hr row (by simp)).trans hk) hg).1

theorem nu_rowWise {t : List K} (ht : t.Pairwise (· < ·)) : (nuDdt t).RowWise where
  plain k rows x hne hr h := by
    simp only [DdtI.plain, nuDdt] at h
    cases hs : ddtNonuniform t ⟨rows.length, k, rows⟩ with
    | error e => rw [hs] at h; cases h
    | ok D =>
      obtain ⟨rfl, h3⟩ := ddtNonuniform_needs hne hr hs
      refine ⟨_, _, _, grad_rule ht h3, fun rows' hr' => ?_⟩
      simp only [DdtI.plain, nuDdt, ddtNonuniform_rows h3 rows' hr', map_id]
      rfl
  inputs U k rows x hne hr h := by
    simp only [nuDdt] at h
    by_cases h1 : k ≠ t.length
    · rw [if_pos h1] at h; cases h
    · rw [if_neg h1] at h
      by_cases h2 : U.inRows.ncolumns ≠ k
      · rw [if_pos h2] at h; cases h
      · rw [if_neg h2] at h
        cases hs : ddtNonuniform t ⟨rows.length, k, rows⟩ with
        | error e => rw [hs] at h; cases h
        | ok D =>
          obtain ⟨rfl, h3⟩ := ddtNonuniform_needs hne hr hs
          rw [hs] at h
          cases h
          refine ⟨_, _, _, grad_rule ht h3, fun rows' hr' => ?_⟩
          simp only [nuDdt, if_neg h1, if_neg h2, ddtNonuniform_rows h3 rows' hr', map_id]
          rfl

end Opinf
