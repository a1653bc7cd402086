import Verif.Lemmas.Affine
import Verif.Lemmas.Lift

/-!
# C09, C10, C66: affine operators

C09: an affine operator is the weighted sum of its terms, in `evaluate`/`apply`, in the block form used
for learning, and under Galerkin projection. C10: a coefficient function with the wrong number of
values is silently accepted (the property is false of the code). C66: copying and saving.
-/

namespace Opinf

open List

variable {K : Type}

/-- The affine operator holds one array of the right shape for each of its (one or more) terms. -/
structure Affine.Holds (a : Affine K) (As : List (Mat K)) (r m : Nat) : Prop where
  entries : a.entries = some As
  count : As.length = a.nterms
  pos : 0 < a.nterms
  fits : ∀ A ∈ As, a.kind.Fits A r m

/-- The parameter value has the dimension the operator expects (if it expects any). -/
def Affine.Accepts (a : Affine K) (mu : Par K) : Prop := a.p = none ∨ a.p = some mu.dim

/-- `y` is the value of an operator call, read as a vector. -/
def Yields (x : Except Err (Arg K)) (y : List K) : Prop :=
  ∃ out, x = .ok out ∧ out.isMat = false ∧ out.toVec = y

theorem Yields.unique {x : Except Err (Arg K)} {y z : List K} (h : Yields x y) (h' : Yields x z) :
    y = z := by
  obtain ⟨o, ho, -, rfl⟩ := h
  obtain ⟨o', ho', -, rfl⟩ := h'
  rw [ho] at ho'; cases ho'; rfl

/-! ### Evaluation -/

theorem learnDim_ok (a : Affine K) (mu : Par K) (h : a.Accepts mu) :
    some mu.dim = (a.learnDim mu).p ∧ (a.learnDim mu).kind = a.kind ∧
      (a.learnDim mu).thetas mu = a.thetas mu := by
  unfold Affine.learnDim Affine.Accepts at *
  rcases h with h | h <;> simp [h, Affine.thetas]

theorem Affine.evaluate_eq [Field K] (a : Affine K) (As : List (Mat K)) (r m : Nat) (hr : 0 < r)
    (h : a.Holds As r m) (mu : Par K) (hmu : a.Accepts mu) (th : List K)
    (hth : a.thetas mu = .ok th) (hne : th ≠ []) :
    a.evaluate mu = (a.learnDim mu, .ok ⟨a.kind, some (weightedSum th As)⟩) := by
  obtain ⟨h1, h2, h3⟩ := learnDim_ok a mu hmu
  have hA : As ≠ [] := by
    intro h0; have := h.count; have := h.pos; simp_all
  have hF := (weightedSum_spec (o := a.kind) (r := r) (m := m) th As h.fits hne hA).1
  unfold Affine.evaluate
  rw [h.entries]
  simp only
  rw [if_neg (by rw [h1]; simp), h3, hth, h2]
  simp only [setEntries_fits a.kind _ r m hr hF]

theorem Affine.apply_val [Field K] (a : Affine K) (As : List (Mat K)) (r m : Nat) (hr : 0 < r)
    (h : a.Holds As r m) (mu : Par K) (hmu : a.Accepts mu) (th : List K)
    (hth : a.thetas mu = .ok th) (hne : th ≠ []) (q : List K) (u : Option (List K))
    (hq : q.length = r) (hu : InputOK a.kind m u) :
    Yields (Op.apply ⟨a.kind, some (weightedSum th As)⟩ (.vec q) (u.map .vec))
        (linComb r th (As.map fun A => Op.val ⟨a.kind, some A⟩ q u)) ∧
    Yields (a.apply mu (.vec q) (u.map .vec)).2
        (linComb r th (As.map fun A => Op.val ⟨a.kind, some A⟩ q u)) := by
  have hA : As ≠ [] := by
    intro h0; have := h.count; have := h.pos; simp_all
  have hev := a.evaluate_eq As r m hr h mu hmu th hth hne
  obtain ⟨hF, hval⟩ := weightedSum_spec (o := a.kind) (r := r) (m := m) th As h.fits hne hA
  have hy : Yields (Op.apply ⟨a.kind, some (weightedSum th As)⟩ (.vec q) (u.map .vec))
      (linComb r th (As.map fun A => Op.val ⟨a.kind, some A⟩ q u)) := by
    obtain ⟨out, h1, h2, h3⟩ := Op.apply_vec (o := ⟨a.kind, some (weightedSum th As)⟩)
      ⟨_, rfl, hF⟩ q u hq hu
    refine ⟨out, h1, h2, ?_⟩
    rw [h3]
    exact hval _
  refine ⟨hy, ?_⟩
  simp only [Affine.apply, hev]; exact hy

/-- **C09 (evaluation).** For every operator class, number of terms, coefficient function, parameter
value, state and input: each term applied to `(q, u)` has a value `y_a`, and the affine operator applied
at `mu` has the value `θ_0(mu) y_0 + ... + θ_{n-1}(mu) y_{n-1}`, as does the nonparametric operator
returned by `evaluate(mu)`. The entries are unchanged. -/
theorem C09_apply [Field K] (a : Affine K) (As : List (Mat K)) (r m : Nat) (hr : 0 < r)
    (h : a.Holds As r m) (mu : Par K) (hmu : a.Accepts mu) (th : List K)
    (hth : a.thetas mu = .ok th) (hlen : th.length = a.nterms) (q : List K) (u : Option (List K))
    (hq : q.length = r) (hu : InputOK a.kind m u) :
    ∃ ys : List (List K),
      Forall₂ (fun A y => Yields (Op.apply ⟨a.kind, some A⟩ (.vec q) (u.map .vec)) y) As ys ∧
      Yields (a.apply mu (.vec q) (u.map .vec)).2 (linComb r th ys) ∧
      (∃ o, (a.evaluate mu).2 = .ok o ∧ o.kind = a.kind ∧
        Yields (o.apply (.vec q) (u.map .vec)) (linComb r th ys)) ∧
      (a.apply mu (.vec q) (u.map .vec)).1.entries = a.entries := by
  have hne : th ≠ [] := by
    intro h0; rw [h0] at hlen; have := h.pos; simp at hlen; omega
  have hev := a.evaluate_eq As r m hr h mu hmu th hth hne
  obtain ⟨hy1, hy2⟩ := a.apply_val As r m hr h mu hmu th hth hne q u hq hu
  refine ⟨As.map fun A => Op.val ⟨a.kind, some A⟩ q u, ?_, hy2, ⟨_, by rw [hev], rfl, hy1⟩, ?_⟩
  · rw [forall₂_map_right_iff, forall₂_same]
    intro A hA'
    exact Op.apply_vec (o := ⟨a.kind, some A⟩) ⟨A, rfl, h.fits A hA'⟩ q u hq hu
  · simp only [Affine.apply, hev, Affine.learnDim]
    split <;> rfl

/-- **C09 (refusals).** Without entries nothing is evaluated (`AttributeError`); a parameter value of
another dimension than the known one is refused (`ValueError`) and changes nothing; a failing coefficient
function is passed on. -/
theorem C09_refusals [Field K] (a : Affine K) (mu : Par K) :
    (a.entries = none → a.evaluate mu = (a, .error .attribute)) ∧
    (∀ As p, a.entries = some As → a.p = some p → mu.dim ≠ p → a.evaluate mu = (a, .error .value)) ∧
    (∀ As e, a.entries = some As → a.Accepts mu → a.coeffs mu = .error e →
      (a.evaluate mu).2 = .error e) := by
  refine ⟨fun h => by simp [Affine.evaluate, h], ?_, ?_⟩
  · intro As p h hp hne
    simp [Affine.evaluate, h, Affine.learnDim, hp, hne]
  · intro As e h hmu he
    obtain ⟨h1, h2, h3⟩ := learnDim_ok a mu hmu
    unfold Affine.evaluate
    rw [h]
    simp only
    rw [if_neg (by rw [h1]; simp), h3]
    simp [Affine.thetas, he]

/-! ### Learning: block entries and data block -/

/-- The `a`-th of the blocks of width `d` of a matrix. -/
def blockAt (B : Mat K) (d i : Nat) : Mat K :=
  ⟨B.nrows, d, B.rows.map fun row => (row.drop (i * d)).take d⟩

theorem colSlice_blockAt {o : OpKind} {r m n : Nat} {B : Mat K} (hBc : B.ncols = n * o.dim r m)
    {i : Nat} (hi : i < n) :
    B.colSlice (i * o.dim r m) ((i + 1) * o.dim r m) = blockAt B (o.dim r m) i := by
  have hle : (i + 1) * o.dim r m ≤ B.ncols := by rw [hBc]; exact Nat.mul_le_mul_right _ hi
  have hs : (i + 1) * o.dim r m = i * o.dim r m + o.dim r m := Nat.succ_mul _ _
  rw [Mat.colSlice, blockAt, Nat.min_eq_left hle, hs, Nat.add_sub_cancel_left]

theorem blockAt_fits {o : OpKind} {r m n : Nat} {B : Mat K} (hB : B.WF) (hBr : B.nrows = r)
    (hBc : B.ncols = n * o.dim r m) {i : Nat} (hi : i < n) :
    o.Fits (blockAt B (o.dim r m) i) r m := by
  have h := colSlice_fits (o := o) (r := r) (m := m) hB hBr (i * o.dim r m) (by
    rw [hBc, ← Nat.succ_mul]; exact Nat.mul_le_mul_right _ hi)
  rw [← Nat.succ_mul, Nat.succ_eq_add_one, colSlice_blockAt hBc hi] at h
  exact h

theorem sameShapes_of {r d : Nat} {As : List (Mat K)} (h : ∀ A ∈ As, A.nrows = r ∧ A.ncols = d) :
    sameShapes As = true := by
  cases As with
  | nil => rfl
  | cons A As =>
    simp only [sameShapes, all_eq_true, Bool.and_eq_true, beq_iff_eq]
    intro B hB
    obtain ⟨a1, a2⟩ := h A mem_cons_self
    obtain ⟨b1, b2⟩ := h B (mem_cons_of_mem _ hB)
    exact ⟨b1.trans a1.symm, b2.trans a2.symm⟩

theorem parseEntries_list [Field K] (o : OpKind) (r m n : Nat) (hr : 0 < r) (As : List (Mat K))
    (hA : ∀ A ∈ As, o.Fits A r m) (hn : As.length = n) :
    parseEntries o n (.list As) = .ok As := by
  have hm : As.mapM o.setEntries = .ok As := by
    rw [mapM_ok_of (g := id) fun A hA' => setEntries_fits o A r m hr (hA A hA'), map_id]
  simp only [parseEntries, bind, Except.bind]
  rw [sameShapes_of (fun A hA' => ⟨(hA A hA').2.1, (hA A hA').2.2⟩)]
  simp [hn, hm, pure, Except.pure]

theorem npSplit_ok (o : OpKind) (r m n : Nat) (hn : 0 < n) (B : Mat K)
    (hBc : B.ncols = n * o.dim r m) :
    npSplit B n = .ok ((range n).map (blockAt B (o.dim r m))) := by
  rw [npSplit, if_neg (by omega), if_neg (by rw [hBc]; simp), hBc,
    Nat.mul_div_cancel_left _ hn]
  congr 1
  apply map_congr_left
  intro i hi
  exact colSlice_blockAt hBc (mem_range.mp hi)

theorem parseEntries_block [Field K] (o : OpKind) (r m n : Nat) (hr : 0 < r) (hn : 0 < n) (B : Mat K)
    (hB : B.WF) (hBr : B.nrows = r) (hBc : B.ncols = n * o.dim r m) :
    parseEntries o n (.block B) = .ok ((range n).map (blockAt B (o.dim r m))) := by
  have h := parseEntries_list o r m n hr ((range n).map (blockAt B (o.dim r m))) (by
    intro A hA
    obtain ⟨i, hi, rfl⟩ := mem_map.mp hA
    exact blockAt_fits hB hBr hBc (mem_range.mp hi)) (by simp)
  rw [← h]
  simp only [parseEntries, npSplit_ok o r m n hn B hBc]

theorem matVec_block [CommSemiring K] (d n r : Nat) (B : Mat K) (hB : B.WF) (hBr : B.nrows = r)
    (hBc : B.ncols = n * d) (x : List K) (hx : x.length = d) (th : List K) (hth : th.length = n) :
    matVec B.rows (th.flatMap fun t => vsmul t x)
      = linComb r th ((range n).map fun i => matVec (blockAt B d i).rows x) := by
  have hlen : B.rows.length = r := by rw [hB.1, hBr]
  apply ext_getElem (by rw [length_matVec, length_linComb, hlen])
  intro i h1 h2
  have hi : i < r := by rwa [length_linComb] at h2
  have hrow : (B.rows[i]'(by omega)).length = th.length * d := by
    rw [hB.2 _ (getElem_mem _), hBc, hth]
  simp only [matVec, linComb, getElem_map, getElem_range]
  rw [dot_flatMap_chunks d x hx th _ hrow, hth, zipWith_map_right]
  congr 2
  funext t j
  congr 1
  rw [getD_eq_getElem _ _ (by simp [blockAt]; omega)]
  simp [blockAt]

/-- Each snapshot of the training data with the parameter value of its data set. -/
def dataSamples {α β γ : Type} (data : List (α × List β × Option (List γ))) : List (α × β × Option γ) :=
  data.flatMap fun x => match x.2.2 with
    | none => x.2.1.map fun q => (x.1, q, none)
    | some U => (zip x.2.1 U).map fun p => (x.1, p.1, some p.2)

/-- The data sets have the right shapes: states of length `r`, and for operators with inputs as many
inputs of length `m`. -/
def DataOK (o : OpKind) (r m : Nat) {α : Type}
    (data : List (α × List (List K) × Option (List (List K)))) : Prop :=
  ∀ x ∈ data, (∀ q ∈ x.2.1, q.length = r) ∧
    (∀ U ∈ x.2.2, U.length = x.2.1.length ∧ ∀ u ∈ U, u.length = m) ∧
    (o.hasInputs = true → x.2.2.isSome = true)

theorem block_samples [CommSemiring K] {o : OpKind} {r m : Nat} {α : Type}
    {x : α × List (List K) × Option (List (List K))}
    (hx : (∀ q ∈ x.2.1, q.length = r) ∧
      (∀ U ∈ x.2.2, U.length = x.2.1.length ∧ ∀ u ∈ U, u.length = m) ∧
      (o.hasInputs = true → x.2.2.isSome = true)) :
    o.block x.2.1 x.2.2 = (dataSamples [x]).map fun y => o.dataCol y.2.1 (y.2.2.getD []) := by
  obtain ⟨mu, Q, U⟩ := x
  cases U with
  | none =>
    have hi : o.hasInputs = false := by
      cases h : o.hasInputs with
      | false => rfl
      | true => have := hx.2.2 h; simp at this
    simp [OpKind.block, hi, dataSamples, Function.comp_def]
  | some U =>
    obtain ⟨hl, -⟩ := hx.2.1 U rfl
    rw [block_eq o Q U (some U) hl (fun _ => rfl)]
    simp [dataSamples, Function.comp_def]

theorem samples_cons {α β γ : Type} (x : α × List β × Option (List γ))
    (data : List (α × List β × Option (List γ))) :
    dataSamples (x :: data) = dataSamples [x] ++ dataSamples data := by
  simp [dataSamples]

theorem mem_samples {o : OpKind} {r m : Nat} {α : Type}
    {data : List (α × List (List K) × Option (List (List K)))} (h : DataOK o r m data)
    {y : α × List K × Option (List K)} (hy : y ∈ dataSamples data) :
    y.2.1.length = r ∧ InputOK o m y.2.2 ∧ (∀ u ∈ y.2.2, u.length = m) ∧ ∃ x ∈ data, x.1 = y.1 := by
  simp only [dataSamples, mem_flatMap] at hy
  obtain ⟨x, hx, hyx⟩ := hy
  obtain ⟨h1, h2, h3⟩ := h x hx
  obtain ⟨mu, Q, U⟩ := x
  cases U with
  | none =>
    simp only [mem_map] at hyx
    obtain ⟨q, hq, rfl⟩ := hyx
    refine ⟨h1 q hq, ?_, by simp, ⟨_, hx, rfl⟩⟩
    intro hi
    have := h3 hi
    simp at this
  | some U =>
    obtain ⟨g1, g2⟩ := h2 U rfl
    simp only [mem_map] at hyx
    obtain ⟨p, hp, rfl⟩ := hyx
    obtain ⟨ha, hb⟩ := of_mem_zip hp
    exact ⟨h1 _ ha, fun _ => ⟨_, rfl, g2 _ hb⟩, by intro u hu; cases hu; exact g2 _ hb, ⟨_, hx, rfl⟩⟩

/-- The coefficient values for a parameter, when there are as many as terms. -/
def Affine.Coefs (a : Affine K) (mu : Par K) (th : List K) : Prop :=
  a.thetas mu = .ok th ∧ th.length = a.nterms

theorem affine_block_eq [CommSemiring K] (a : Affine K) (r m : Nat) (hn : 0 < a.nterms)
    (data : List (Par K × List (List K) × Option (List (List K)))) (hdata : DataOK a.kind r m data)
    (hne : data ≠ []) (c : Par K → List K) (hc : ∀ x ∈ data, a.Coefs x.1 (c x.1)) :
    a.block data = .ok ((dataSamples data).map fun y =>
      (c y.1).flatMap fun t => vsmul t (a.kind.dataCol y.2.1 (y.2.2.getD []))) := by
  have h1 : data.mapM (fun x => affineBlock1 a x.1 x.2.1 x.2.2) = .ok (data.map fun x =>
      (a.nterms, (dataSamples [x]).map fun y =>
        (c y.1).flatMap fun t => vsmul t (a.kind.dataCol y.2.1 (y.2.2.getD [])))) := by
    apply mapM_ok_of
    intro x hx
    obtain ⟨e1, e2⟩ := hc x hx
    unfold affineBlock1
    rw [e1]
    cases hcx : c x.1 with
    | nil => rw [hcx] at e2; simp at e2; omega
    | cons t ts =>
      simp only
      rw [← hcx, e2, block_samples (hdata x hx), map_map]
      congr 2
      apply map_congr_left
      intro y hy
      obtain ⟨-, -, -, z, hz, hzy⟩ := mem_samples (o := a.kind) (r := r) (m := m) (data := [x])
        (fun z hz => by rw [mem_singleton.mp hz]; exact hdata x hx) hy
      rw [mem_singleton.mp hz] at hzy
      simp only [Function.comp_apply, hzy]
  unfold Affine.block
  rw [h1]
  obtain ⟨x, data, rfl⟩ := exists_cons_of_ne_nil hne
  simp only [map_cons, hstackCols]
  rw [if_pos (by simp), samples_cons x data, map_append]
  congr 2
  rw [flatMap_map]
  clear h1 hne hc hdata
  induction data with
  | nil => rfl
  | cons z data ih => rw [flatMap_cons, ih, samples_cons z data, map_append]

/-- **C09 (learning).** Let `B` be any `r × (nterms · d)` block row, as the least-squares solver
returns it. `set_entries(B, fromblock=True)` succeeds, and the data block for the training data has one
column for each snapshot of each data set, such that `B @ column` equals the learned affine operator
applied at that data set's parameter value to that snapshot (and input). -/
theorem C09_block [Field K] (a : Affine K) (r m : Nat) (hr : 0 < r) (hn : 0 < a.nterms) (B : Mat K)
    (hB : B.WF) (hBr : B.nrows = r) (hBc : B.ncols = a.dim r m)
    (data : List (Par K × List (List K) × Option (List (List K)))) (hdata : DataOK a.kind r m data)
    (hne : data ≠ []) (hc : ∀ x ∈ data, a.Accepts x.1 ∧ ∃ th, a.Coefs x.1 th) :
    ∃ a' As cols, a.setEntries (.block B) = .ok a' ∧ a'.Holds As r m ∧ a.block data = .ok cols ∧
      Forall₂ (fun col y => col.length = a.dim r m ∧
        Yields (a'.apply y.1 (.vec y.2.1) (y.2.2.map .vec)).2 (matVec B.rows col))
        cols (dataSamples data) := by
  classical
  -- choose the coefficients
  let c : Par K → List K := fun mu => if h : ∃ th, a.Coefs mu th then h.choose else []
  have hcs : ∀ x ∈ data, a.Coefs x.1 (c x.1) := by
    intro x hx
    have h := (hc x hx).2
    simp only [c, dif_pos h]
    exact h.choose_spec
  refine ⟨{ a with entries := some ((range a.nterms).map (blockAt B (a.kind.dim r m))) },
    (range a.nterms).map (blockAt B (a.kind.dim r m)), _, ?_, ?_,
    affine_block_eq a r m hn data hdata hne c hcs, ?_⟩
  · rw [Affine.setEntries, parseEntries_block a.kind r m a.nterms hr hn B hB hBr hBc]
  · refine ⟨rfl, by simp, hn, ?_⟩
    intro A hA
    obtain ⟨i, hi, rfl⟩ := mem_map.mp hA
    exact blockAt_fits hB hBr hBc (mem_range.mp hi)
  · rw [forall₂_map_left_iff, forall₂_same]
    rintro ⟨mu, q, u⟩ hy
    obtain ⟨hq, hu, hul, x, hx, rfl⟩ := mem_samples hdata hy
    obtain ⟨e1, e2⟩ := hcs x hx
    simp only at hq hu hul ⊢
    have hd : (a.kind.dataCol q (u.getD [])).length = a.kind.dim r m := by
      rw [dataCol_length, hq]
      by_cases hi : a.kind.hasInputs = true
      · obtain ⟨v, rfl, hv⟩ := hu hi
        rw [Option.getD_some, hv]
      · exact dim_ignores_input _ (by simpa using hi) _ _ _
    constructor
    · rw [Affine.dim, ← e2]
      generalize c x.1 = th
      induction th with
      | nil => simp
      | cons t th ih => rw [flatMap_cons, length_append, ih, length_vsmul, hd, length_cons]; ring
    · have hne' : c x.1 ≠ [] := by
        intro h0; rw [h0] at e2; simp at e2; omega
      have f := (Affine.apply_val
        { a with entries := some ((range a.nterms).map (blockAt B (a.kind.dim r m))) }
        ((range a.nterms).map (blockAt B (a.kind.dim r m))) r m hr
        ⟨rfl, by simp, hn, by
          intro A hA
          obtain ⟨i, hi, rfl⟩ := mem_map.mp hA
          exact blockAt_fits hB hBr hBc (mem_range.mp hi)⟩ x.1 (hc x hx).1 (c x.1) e1 hne' q u hq hu).2
      rw [map_map] at f
      rw [matVec_block (a.kind.dim r m) a.nterms r B hB hBr hBc _ hd (c x.1) e2]
      exact f

/-! ### Galerkin projection -/

theorem matVec_linComb [CommSemiring K] (r : Nat) (G : List (List K)) (th : List K)
    (ys : List (List K)) (hy : ∀ y ∈ ys, y.length = r) :
    matVec G (linComb r th ys) = linComb G.length th (ys.map (matVec G)) := by
  apply ext_getElem (by rw [length_matVec, length_linComb])
  intro i h1 h2
  have hi : i < G.length := by rwa [length_linComb] at h2
  simp only [matVec, linComb, getElem_map, getElem_range]
  change dot G[i] (linComb r th ys) = _
  rw [← linComb_eq r th ys hy, dot_comm', dot_vecMat r th ys _ hy, dot, matVec, zipWith_map_right,
    zipWith_map_right]
  congr 2
  funext t y
  rw [getD_eq_getElem _ _ (by rw [length_matVec]; exact hi)]
  simp only [matVec, getElem_map]
  rw [dot_comm']

theorem galerkin_rows [Field K] [CharZero K] [DecidableEq K]
    (solve : List (List K) → Mat K → Except Err (Mat K)) (o : OpKind) (E : Mat K)
    (n m r : Nat) (hn : 0 < n) (hr : 0 < r) (hF : o.Fits E n m) (V W : List (List K))
    (hV : V.length = n) (hVr : ∀ row ∈ V, row.length = r) (hW : W.length = n)
    (hsolve : gram r W V ≠ eye r → SolvesExactly solve (gram r W V) r) :
    ∃ F : Mat K, o.galerkin solve E r r V W = .ok F ∧ o.Fits F r m ∧
      ∀ q u : List K, q.length = r → u.length = m →
        matVec (gram r W V) (matVec F.rows (o.dataCol q u))
            = matVec (transpose r W) (matVec E.rows (o.dataCol (matVec V q) u)) ∧
        (gram r W V = eye r → matVec F.rows (o.dataCol q u)
            = matVec (transpose r W) (matVec E.rows (o.dataCol (matVec V q) u))) := by
  obtain ⟨F, h1, h2, h3⟩ := C06_galerkin_commutes solve o E n m r hn hr hF V W hV hVr hW hsolve
  refine ⟨F, h1, h2, fun q u hq hu => ?_⟩
  obtain ⟨y, z, e1, e2, e3, e4⟩ := h3 q u hq hu
  rw [applyV_eq o F r m h2 q u hq hu] at e1
  rw [applyV_eq o E n m hF _ u (by rw [length_matVec, hV]) hu] at e2
  cases e1; cases e2
  exact ⟨e3, e4⟩

/-- **C09 (projection).** The Galerkin projection of an affine operator has the same coefficient
function and number of terms, and projecting commutes with evaluating: at every parameter value, the
projected affine operator `y`, the projection `y'` of the operator evaluated there, and the original
operator `z` at the lifted state satisfy `(WᵀV) y = (WᵀV) y' = Wᵀ z`, without the factor if `WᵀV = I`. -/
theorem C09_galerkin [Field K] [CharZero K] [DecidableEq K]
    (solve : List (List K) → Mat K → Except Err (Mat K)) (a : Affine K) (As : List (Mat K))
    (n m r : Nat) (hn : 0 < n) (hr : 0 < r) (h : a.Holds As n m) (V W : List (List K))
    (hV : V.length = n) (hVr : ∀ row ∈ V, row.length = r) (hW : W.length = n)
    (hsolve : gram r W V ≠ eye r → SolvesExactly solve (gram r W V) r) :
    ∃ b Bs, a.galerkin solve r r V W = .ok b ∧ b.Holds Bs r m ∧ b.kind = a.kind ∧
      b.coeffs = a.coeffs ∧ b.nterms = a.nterms ∧
      ∀ mu th, a.Accepts mu → a.Coefs mu th → ∃ E F, (a.evaluate mu).2 = .ok ⟨a.kind, some E⟩ ∧
        a.kind.galerkin solve E r r V W = .ok F ∧
        ∀ q u : List K, q.length = r → u.length = m → ∃ y y' z,
          Yields (b.apply mu (.vec q) (some (.vec u))).2 y ∧
          Yields (Op.apply ⟨a.kind, some F⟩ (.vec q) (some (.vec u))) y' ∧
          Yields (a.apply mu (.vec (matVec V q)) (some (.vec u))).2 z ∧
          matVec (gram r W V) y = matVec (transpose r W) z ∧
          matVec (gram r W V) y' = matVec (transpose r W) z ∧
          (gram r W V = eye r → y = matVec (transpose r W) z ∧ y' = matVec (transpose r W) z) := by
  classical
  have hex : ∀ A ∈ As, ∃ F, _ := fun A hA =>
    galerkin_rows solve a.kind A n m r hn hr (h.fits A hA) V W hV hVr hW hsolve
  let f : Mat K → Mat K := fun A => if hA : A ∈ As then (hex A hA).choose else A
  have hf : ∀ A ∈ As, a.kind.galerkin solve A r r V W = .ok (f A) ∧ a.kind.Fits (f A) r m ∧
      ∀ q u : List K, q.length = r → u.length = m →
        matVec (gram r W V) (matVec (f A).rows (a.kind.dataCol q u))
            = matVec (transpose r W) (matVec A.rows (a.kind.dataCol (matVec V q) u)) ∧
        (gram r W V = eye r → matVec (f A).rows (a.kind.dataCol q u)
            = matVec (transpose r W) (matVec A.rows (a.kind.dataCol (matVec V q) u))) := by
    intro A hA
    have := (hex A hA).choose_spec
    simp only [f, dif_pos hA]
    exact this
  have hm : As.mapM (fun A => a.kind.galerkin solve A r r V W) = .ok (As.map f) :=
    mapM_ok_of fun A hA => (hf A hA).1
  have hfit : ∀ B ∈ As.map f, a.kind.Fits B r m := by
    intro B hB
    obtain ⟨A, hA, rfl⟩ := mem_map.mp hB
    exact (hf A hA).2.1
  have hpos := h.pos
  let b : Affine K := ⟨a.kind, a.nterms, a.coeffs, none, some (As.map f)⟩
  have hb : b.Holds (As.map f) r m := ⟨rfl, by simpa using h.count, hpos, hfit⟩
  have hgal : a.galerkin solve r r V W = .ok b := by
    simp only [Affine.galerkin, h.entries, hm, Affine.make, Affine.start]
    rw [if_neg (by simp; omega)]
    simp only [Affine.setEntries, Int.toNat_natCast]
    rw [parseEntries_list a.kind r m a.nterms hr (As.map f) hfit (by simpa using h.count)]
  refine ⟨b, As.map f, hgal, hb, rfl, rfl, rfl, ?_⟩
  rintro mu th hmu ⟨hth, hlen⟩
  have hne : th ≠ [] := by
    intro h0; rw [h0] at hlen; simp at hlen; omega
  have hA : As ≠ [] := by
    intro h0; have := h.count; simp_all
  have hthb : b.thetas mu = .ok th := hth
  have hFE := (weightedSum_spec (o := a.kind) (r := n) (m := m) th As h.fits hne hA).1
  obtain ⟨F, g1, g2, g3⟩ := galerkin_rows solve a.kind (weightedSum th As) n m r hn hr hFE V W hV hVr hW
    hsolve
  refine ⟨weightedSum th As, F, by rw [a.evaluate_eq As n m hn h mu hmu th hth hne], g1, ?_⟩
  intro q u hq hu
  have hVq : (matVec V q).length = n := by rw [length_matVec, hV]
  have y1 := (b.apply_val (As.map f) r m hr hb mu (Or.inl rfl) th hthb hne q (some u) hq
    (fun _ => ⟨u, rfl, hu⟩)).2
  have y2 := Op.apply_vec (o := ⟨a.kind, some F⟩) ⟨F, rfl, g2⟩ q (some u) hq (fun _ => ⟨u, rfl, hu⟩)
  have y3 := (a.apply_val As n m hn h mu hmu th hth hne (matVec V q) (some u) hVq
    (fun _ => ⟨u, rfl, hu⟩)).2
  have y4 := (weightedSum_spec (o := a.kind) (r := n) (m := m) th As h.fits hne hA).2
    (a.kind.dataCol (matVec V q) u)
  have gl : (gram r W V).length = r := by simp [gram, matMul, transpose]
  have tl : (transpose r W).length = r := by simp [transpose]
  have hy1 : ∀ y ∈ (As.map f).map (fun A => Op.val ⟨a.kind, some A⟩ q (some u)), y.length = r := by
    intro y hy
    obtain ⟨A, hA, rfl⟩ := mem_map.mp hy
    exact Op.Cal.length_val (o := ⟨a.kind, some A⟩) ⟨A, rfl, hfit A hA⟩ q (some u)
  have hy3 : ∀ y ∈ As.map (fun A => Op.val ⟨a.kind, some A⟩ (matVec V q) (some u)), y.length = n := by
    intro y hy
    obtain ⟨A, hA, rfl⟩ := mem_map.mp hy
    exact Op.Cal.length_val (o := ⟨a.kind, some A⟩) ⟨A, rfl, h.fits A hA⟩ (matVec V q) (some u)
  refine ⟨_, _, _, y1, y2, y3, ?_, ?_, ?_⟩
  · rw [matVec_linComb r _ th _ hy1, matVec_linComb n _ th _ hy3, gl, tl, map_map, map_map, map_map]
    congr 1
    apply map_congr_left
    intro A hA
    exact ((hf A hA).2.2 q u hq hu).1
  · exact ((g3 q u hq hu).1).trans (congrArg _ y4)
  · intro hI
    constructor
    · rw [matVec_linComb n _ th _ hy3, tl, map_map, map_map]
      congr 1
      apply map_congr_left
      intro A hA
      exact ((hf A hA).2.2 q u hq hu).2 hI
    · exact ((g3 q u hq hu).2 hI).trans (congrArg _ y4)

/-! ### C10: coefficient vectors of the wrong length -/

theorem weightedSum_take [Semiring K] (th : List K) (As : List (Mat K)) :
    weightedSum th As = weightedSum (th.take As.length) (As.take th.length) := by
  have : zipWith Mat.scale th As = zipWith Mat.scale (th.take As.length) (As.take th.length) := by
    induction th generalizing As with
    | nil => simp
    | cons t th ih => cases As with
      | nil => simp
      | cons A As => simpa using ih As
  rw [weightedSum, weightedSum, this]

/-- **C10 (false of the code).** Whenever the coefficient function returns a vector of the wrong
(nonzero) length, `evaluate` still succeeds: it silently ignores the surplus coefficients, or the terms
without a coefficient. -/
theorem C10_wrong_length_accepted [Field K] (a : Affine K) (As : List (Mat K)) (r m : Nat) (hr : 0 < r)
    (h : a.Holds As r m) (mu : Par K) (hmu : a.Accepts mu) (th : List K)
    (hth : a.coeffs mu = .ok (.vec th)) (hne : th ≠ []) :
    (a.evaluate mu).2
      = .ok ⟨a.kind, some (weightedSum (th.take a.nterms) (As.take th.length))⟩ := by
  have hth' : a.thetas mu = .ok th := by simp [Affine.thetas, hth]
  rw [a.evaluate_eq As r m hr h mu hmu th hth' hne, weightedSum_take th As, h.count]

/-- The data block, on the other hand, has as many rows as the coefficient function returns values
(times `d`), whatever the number of terms; so learning and evaluation disagree. -/
theorem C10_block_width [CommSemiring K] (a : Affine K) (mu : Par K) (r m : Nat) (th : List K)
    (hth : a.coeffs mu = .ok (.vec th)) (hne : th ≠ []) (Q U : List (List K))
    (hQ : ∀ q ∈ Q, q.length = r) (hU : ∀ u ∈ U, u.length = m) (hl : U.length = Q.length) :
    ∃ cols, a.block [(mu, Q, some U)] = .ok cols ∧
      ∀ col ∈ cols, col.length = th.length * a.kind.dim r m := by
  have hth' : a.thetas mu = .ok th := by simp [Affine.thetas, hth]
  refine ⟨(a.kind.block Q (some U)).map fun d => th.flatMap fun t => vsmul t d, ?_, ?_⟩
  · obtain ⟨t, ts, rfl⟩ := exists_cons_of_ne_nil hne
    simp [Affine.block, affineBlock1, hth', hstackCols, bind, Except.bind, pure, Except.pure]
  · intro col hcol
    obtain ⟨d, hd, rfl⟩ := mem_map.mp hcol
    rw [block_eq a.kind Q U (some U) hl (fun _ => rfl), mem_map] at hd
    obtain ⟨p, hp, rfl⟩ := hd
    obtain ⟨p1, p2⟩ := of_mem_zip hp
    have hdl : (a.kind.dataCol p.1 p.2).length = a.kind.dim r m := by
      rw [dataCol_length, hQ _ p1, hU _ p2]
    clear hth hth' hcol hne
    induction th with
    | nil => simp
    | cons t th ih => rw [flatMap_cons, length_append, ih, length_vsmul, hdl, length_cons]; ring

/-- An empty coefficient vector gives the zero operator of state dimension 1 for the constant class,
whatever the dimension of the terms. -/
theorem C10_no_coefficients [Field K] (a : Affine K) (As : List (Mat K)) (hk : a.kind = .const)
    (h : a.entries = some As) (mu : Par K) (hmu : a.Accepts mu) (hth : a.coeffs mu = .ok (.vec [])) :
    (a.evaluate mu).2 = .ok ⟨.const, some ⟨1, 1, [[0]]⟩⟩ := by
  obtain ⟨h1, h2, h3⟩ := learnDim_ok a mu hmu
  unfold Affine.evaluate
  rw [h]
  simp only
  rw [if_neg (by rw [h1]; simp), h3, h2, hk]
  simp [Affine.thetas, hth, weightedSum, OpKind.setEntries]

/-- **C10, what does hold.** If the coefficient function returns as many values as there are terms, no
term and no coefficient is dropped. -/
theorem C10_right_length_partial [Field K] (a : Affine K) (As : List (Mat K)) (r m : Nat) (hr : 0 < r)
    (h : a.Holds As r m) (mu : Par K) (hmu : a.Accepts mu) (th : List K)
    (hth : a.coeffs mu = .ok (.vec th)) (hlen : th.length = a.nterms) :
    ∃ E, (a.evaluate mu).2 = .ok ⟨a.kind, some E⟩ ∧ a.kind.Fits E r m ∧
      ∀ x : List K, ∀ i, i < r → (matVec E.rows x).getD i 0
        = ((range a.nterms).map fun k => th.getD k 0 * (matVec (As.getD k ⟨0, 0, []⟩).rows x).getD i 0).sum := by
  have hth' : a.thetas mu = .ok th := by simp [Affine.thetas, hth]
  have hpos := h.pos
  have hne : th ≠ [] := by
    intro h0; rw [h0] at hlen; simp at hlen; omega
  have hA : As ≠ [] := by
    intro h0; have := h.count; simp_all
  obtain ⟨hF, hv⟩ := weightedSum_spec (o := a.kind) (r := r) (m := m) th As h.fits hne hA
  refine ⟨weightedSum th As, by rw [a.evaluate_eq As r m hr h mu hmu th hth' hne], hF, ?_⟩
  intro x i hi
  rw [hv x, getD_linComb _ _ _ _ hi, zipWith_map_right]
  congr 1
  have hc := h.count
  apply ext_getElem (by simp [hlen, hc])
  intro k h1 h2
  have hk : k < a.nterms := by simpa using h2
  simp only [getElem_zipWith, getElem_map, getElem_range]
  rw [getD_eq_getElem th 0 (by omega), getD_eq_getElem As _ (by omega)]

/-! ### C66: copying, saving and loading -/

/-- **C66 (copy).** A copy of an affine operator is equal to it: same class, number of terms,
coefficient function, parameter dimension and entries, whether or not the entries are set. -/
theorem C66_copy [Field K] (a : Affine K) (r m : Nat) (hr : 0 < r) (hn : 0 < a.nterms)
    (hp : a.p ≠ some 0) (h : ∀ As, a.entries = some As → a.Holds As r m) : a.copy = .ok a := by
  obtain ⟨kind, n, c, p, e⟩ := a
  simp only at hn hp h
  have hstart : Affine.start kind (.func c) (some (n : Int)) = .ok ⟨kind, n, c, none, none⟩ := by
    simp only [Affine.start]
    rw [if_neg (by simp; omega)]
    simp
  have hres : ∀ e', Affine.restoreDim (⟨kind, n, c, none, e'⟩ : Affine K) p = .ok ⟨kind, n, c, p, e'⟩ := by
    intro e'
    cases p with
    | none => rfl
    | some p =>
      have hp' : ¬ p < 1 := fun h0 => hp (by congr 1; omega)
      simp only [Affine.restoreDim, setParamDim]
      rw [if_neg (by simp), if_neg hp']
  cases e with
  | none => simp only [Affine.copy, Affine.make, hstart, Option.map_none, hres]
  | some As =>
    have hH := h As rfl
    simp only [Affine.copy, Affine.make, hstart, Option.map_some, Affine.setEntries]
    rw [parseEntries_list kind r m n hr As hH.fits hH.count]
    simp only [hres]

/-- **C66 (save and load).** Loading a saved affine operator with its coefficient function (or with a
list of coefficient functions, one for each term) gives back the same operator. -/
theorem C66_save_load [Field K] (a : Affine K) (r m : Nat) (hr : 0 < r) (hn : 0 < a.nterms)
    (hp : a.p ≠ some 0) (h : ∀ As, a.entries = some As → a.Holds As r m) :
    Affine.load a.kind a.save (.func a.coeffs) = .ok a ∧
    ∀ fs : List (Par K → Except Err K), fs.length = a.nterms →
      Affine.load a.kind a.save (.list (fs.map some)) = .ok { a with coeffs := vectorized fs } := by
  have h0 := C66_copy a r m hr hn hp h
  constructor
  · rw [← h0, Affine.load, if_neg (by simp [Affine.save]), Affine.copy]
    rfl
  · intro fs hfs
    have h1 := C66_copy { a with coeffs := vectorized fs } r m hr hn hp
      (fun As hAs => ⟨hAs, (h As hAs).count, hn, (h As hAs).fits⟩)
    rw [← h1, Affine.load, if_neg (by simp [Affine.save]), Affine.copy]
    have e : Affine.start a.kind (.list (fs.map some)) (some (a.save.nterms : Int))
        = Affine.start a.kind (.func (vectorized fs)) (some (a.nterms : Int)) := by
      have hn0 : ¬ ((some (a.nterms : Int)).any (· < 1)) = true := by simp; omega
      have hsn : a.save.nterms = a.nterms := rfl
      rw [hsn]
      simp only [Affine.start]
      rw [if_neg hn0, if_neg hn0, if_neg (by simp)]
      simp [hfs]
    simp only [Affine.make, e]
    rfl

/-- **C66 (refusals).** A file holding another class is refused (`TypeError`). -/
theorem C66_load_class [Field K] (a : Affine K) (kind : OpKind) (c : CoefArg K) (h : a.kind ≠ kind) :
    Affine.load kind a.save c = .error .type := by
  simp [Affine.load, Affine.save, h]

/-- **C66 (false of the code).** An affine operator whose coefficients were given as an integer cannot be
loaded with the same argument: the constructor has already set the parameter dimension and `load` tries
to set it again (`AttributeError`). -/
theorem C66_integer_coefficients_fail [Field K] (kind : OpKind) (n : Nat) (hn : 0 < n)
    (e : Option (EntArg K)) (a : Affine K) (r m : Nat) (hr : 0 < r)
    (hmake : Affine.make kind (.int n) none e = .ok a)
    (h : ∀ As, a.entries = some As → a.Holds As r m) :
    Affine.load kind a.save (.int n) = .error .attribute := by
  have hs : ∀ o : Option Int, (∀ x ∈ o, 1 ≤ x) → Affine.start (K := K) kind (.int n) o
      = .ok ⟨kind, n, fun mu => .ok mu, some n, none⟩ := by
    intro o ho
    simp only [Affine.start]
    rw [if_neg, if_pos (by omega)]
    · simp
    · cases o with
      | none => simp
      | some x => have := ho x rfl; simp; omega
  have ha : a.kind = kind ∧ a.nterms = n ∧ a.p = some n := by
    rw [Affine.make, hs none (by simp)] at hmake
    cases e with
    | none => cases hmake; exact ⟨rfl, rfl, rfl⟩
    | some e =>
      simp only [Affine.setEntries] at hmake
      cases hp : parseEntries kind n e with
      | error er => rw [hp] at hmake; simp at hmake
      | ok As => rw [hp] at hmake; simp only [Except.ok.injEq] at hmake; subst hmake; exact ⟨rfl, rfl, rfl⟩
  obtain ⟨hk, hnt, hp⟩ := ha
  have key : ∃ b, Affine.make kind (.int n) (some (a.save.nterms : Int)) (a.save.entries.map .list) = .ok b ∧
      b.p = some n := by
    rw [Affine.make, hs _ (by simp [Affine.save]; omega)]
    cases he : a.entries with
    | none => simp only [Affine.save, he, Option.map_none]; exact ⟨_, rfl, rfl⟩
    | some As =>
      have hH := h As he
      simp only [Affine.save, he, Option.map_some, Affine.setEntries]
      rw [parseEntries_list kind r m n hr As (hk ▸ hH.fits) (hH.count.trans hnt)]
      exact ⟨_, rfl, rfl⟩
  obtain ⟨b, hb, hbp⟩ := key
  rw [Affine.load, if_neg (by simp [Affine.save, hk]), hb]
  simp [Affine.restoreDim, Affine.save, hp, setParamDim, hbp]

/-! ### The hypotheses are satisfiable -/

/-- A linear operator with two terms on a two-dimensional state whose coefficients are the parameter. -/
def affEx : Affine ℚ :=
  ⟨.lin, 2, fun mu => .ok mu, some 2, some [⟨2, 2, [[1, 0], [0, 1]]⟩, ⟨2, 2, [[0, 1], [2, 3]]⟩]⟩

/-- The same with the coefficient function `mu ↦ [mu]`, which is too short. -/
def affExShort : Affine ℚ :=
  ⟨.lin, 2, fun mu => match mu with | .scalar x => .ok (.vec [x]) | .vec xs => .ok (.vec xs), none,
    some [⟨2, 2, [[1, 0], [0, 1]]⟩, ⟨2, 2, [[0, 1], [2, 3]]⟩]⟩

example : affEx.Holds [⟨2, 2, [[1, 0], [0, 1]]⟩, ⟨2, 2, [[0, 1], [2, 3]]⟩] 2 0 :=
  ⟨rfl, rfl, by decide, by
    intro A hA
    simp only [mem_cons, not_mem_nil, or_false] at hA
    rcases hA with rfl | rfl <;> exact ⟨⟨rfl, by decide⟩, rfl, rfl⟩⟩
example : affEx.Accepts (.vec [10, 1]) ∧ affEx.Coefs (.vec [10, 1]) [10, 1] := ⟨Or.inr rfl, rfl, rfl⟩
example : ¬ affEx.Accepts (.vec [10, 1, 0]) := by simp [Affine.Accepts, affEx, Par.dim]
example : (affEx.apply (.vec [10, 1]) (.vec [1, 2]) none).2 = .ok (.vec [12, 28]) := by decide +kernel
example : Affine.make (K := ℚ) .lin (.int 2) none none
    = Affine.make .lin (.int 2) (some 7) none := by rfl
example : affEx.block [(.vec [10, 1], [[1, 2], [3, 4]], none), (.vec [0, 5], [[1, 1]], none)]
    = .ok [[10, 20, 1, 2], [30, 40, 3, 4], [0, 0, 5, 5]] := by decide +kernel
example : DataOK (K := ℚ) .lin 2 0
    [(Par.vec [10, 1], [[1, 2], [3, 4]], none), (.vec [0, 5], [[1, 1]], none)] := by
  intro x hx
  simp only [mem_cons, not_mem_nil, or_false] at hx
  rcases hx with rfl | rfl <;> simp [OpKind.hasInputs]
-- projection onto one basis vector with oblique test functions, `WᵀV = 1`
example : gram 1 [[3], [-1]] [[1], [2]] = eye (K := ℚ) 1 ∧
    (match affEx.galerkin (fun _ _ => .error .linalg) 1 1 [[1], [2]] [[3], [-1]] with
      | .ok b => (b.apply (.vec [10, 1]) (.vec [1]) none).2
      | .error e => .error e) = .ok (.vec [8]) := by decide +kernel

/-- **C10 (concrete witness).** One coefficient for two terms: the second term is dropped. -/
theorem C10_wrong_length_witness :
    (match (affExShort.evaluate (.scalar 7)).2 with | .ok o => o.entries | .error _ => none)
      = some ⟨2, 2, [[7, 0], [0, 7]]⟩ ∧
    (match (affExShort.evaluate (.vec [7, 1, 100])).2 with | .ok o => o.entries | .error _ => none)
      = some ⟨2, 2, [[7, 1], [2, 10]]⟩ := by decide +kernel

example : (match affEx.copy with | .ok b => (b.p, b.entries) | .error _ => (none, none))
    = (some 2, affEx.entries) := by decide +kernel
example : (match Affine.load .lin affEx.save (.int 2) with | .ok _ => none | .error e => some e)
    = some Err.attribute := by decide +kernel

end Opinf
