import Verif.Props.RomOrder
import Verif.Props.Repeated

/-!
# C132 for reduced-order models: trajectories given several times
-/

namespace Opinf

open List

variable {K T B S : Type}

/-- What becomes of the trajectories does not depend on the model. -/
theorem processAll_same {S' : Type} (R : FRom K T B S) (R' : FRom K T B S') (h1 : R'.rom = R.rom) (h2 : R'.ddt = R.ddt)
    (hasL hasU fitT fitB : Bool) (xs : List (TrajArgs K)) :
    (R'.processAll hasL hasU fitT fitB xs).2 = (R.processAll hasL hasU fitT fitB xs).2 := by
  rw [FRom.processAll, FRom.processAll, FRom.process, FRom.process, h1]
  rcases R.rom.reduceTrain fitT fitB (xs.map TrajArgs.q) (passIf hasL (xs.map TrajArgs.z)) with ⟨rom, e | ⟨Y, Z⟩⟩
  · rfl
  · simp only [FRom.lhsTrain, h2]

theorem forall₂_repeat {α β : Type} {P : α → β → Prop} {xs : List α} {ts : List β} (h : Forall₂ P xs ts) (k : Nat) :
    Forall₂ P (replicate k xs).flatten (replicate k ts).flatten := by
  induction k with
  | zero => exact .nil
  | succ k ih =>
    rw [replicate_succ, replicate_succ, flatten_cons, flatten_cons]
    exact rel_append h ih

theorem flatMap_repeat {α β : Type} (f : α → List β) (ts : List α) (k : Nat) :
    (replicate k ts).flatten.flatMap f = (replicate k (ts.flatMap f)).flatten := by
  induction k with
  | zero => rfl
  | succ k ih =>
    rw [replicate_succ, replicate_succ, flatten_cons, flatten_cons, flatMap_append, ih]

theorem asData_ext (hasU : Bool) {ts ts' : List (TrajArgs K)}
    (h : Forall₂ (fun t t' => asData hasU [t] = asData hasU [t']) ts ts') : asData hasU ts = asData hasU ts' := by
  induction h with
  | nil => rfl
  | cons e _ ih =>
    simp only [asData, map_cons, map_nil, TrainData.mk.injEq, cons.injEq, and_true] at e ih ⊢
    refine ⟨⟨e.1, ih.1⟩, ⟨e.2.1, ih.2.1⟩, ?_⟩
    cases hasU with
    | false => rfl
    | true =>
      simp only [passIf, if_true, Option.some.injEq, cons.injEq, and_true] at e ih ⊢
      exact ⟨e.2.2, ih.2.2⟩

/-- The data of repeated trajectories are the repeated data, in some order. -/
theorem repeated_data {S' : Type} (R P : FRom K T B S) (R' P' : FRom K T B S') (hrom : P'.rom = P.rom) (hddt : P'.ddt = P.ddt)
    (hasL hasU fitT fitB : Bool) (xs ys : List (TrajArgs K)) (k : Nat) (hxy : ys.Perm (replicate k xs).flatten)
    (d d' : TrainData K) (h : R.processAll hasL hasU fitT fitB xs = (P, .ok d))
    (h' : R'.processAll hasL hasU fitT fitB ys = (P', .ok d')) :
    ∃ ts ts', d = asData hasU ts ∧ d' = asData hasU ts' ∧ ts'.Perm (replicate k ts).flatten := by
  obtain ⟨ts, rfl, h3⟩ := C110_each_alone _ _ _ _ _ _ _ _ h
  obtain ⟨ts', rfl, h4⟩ := C110_each_alone _ _ _ _ _ _ _ _ h'
  obtain ⟨ts'', h5, h6⟩ := perm_comp_forall₂ hxy (forall₂_repeat h3 k)
  refine ⟨ts, ts'', rfl, (asData_ext hasU ?_).symm, h6⟩
  clear * - h5 h4 hrom hddt
  induction h5 generalizing ts' with
  | nil => cases h4; exact .nil
  | @cons x t xs' ts'' hxt _ ih =>
    cases h4 with
    | cons hxt' h4 =>
      refine .cons ?_ (ih _ h4)
      have e := processAll_same P P' hrom hddt hasL hasU false false [x]
      rw [hxt, hxt'] at e
      exact (Except.ok.inj e).symm

section

variable [Field K] [LinearOrder K] [IsStrictOrderedRing K]

/-- A reduced-order model `R` is trained with the trajectories `xs`, and `R'`, which differs only in the solver, with `ys`,
which are the trajectories `xs` given `k` times in any order. Transformer and basis are not refitted, or refitting gives the
same in both cases. The data `d` made of `xs` have `r`-dimensional states and `m`-dimensional inputs. -/
structure RepeatedTrainings {S S' : Type} (I : SolverI K S) (I' : SolverI K S') (R R₁ : FRom K T B S) (R' R₂ : FRom K T B S')
    (hasL hasU fitT fitB : Bool) (xs ys : List (TrajArgs K)) (d : TrainData K) (k r m : Nat) : Prop where
  inv : R.model.Inv
  inv' : R'.model.Inv
  learns : R.model.intrusive = false
  learns' : R'.model.intrusive = false
  slots : R'.model.slots = R.model.slots
  rom : R'.rom = R.rom
  ddt : R'.ddt = R.ddt
  some : 0 < k
  perm : ys.Perm (replicate k xs).flatten
  first : R.fitAll I hasL hasU fitT fitB xs = (R₁, .ok ())
  second : R'.fitAll I' hasL hasU fitT fitB ys = (R₂, .ok ())
  parts : fitT = false ∧ fitB = false ∨ R₂.rom = R₁.rom
  data : (R.processAll hasL hasU fitT fitB xs).2 = .ok d
  aligned : d.Aligned
  pos : 0 < r
  dim : ∀ Y ∈ d.states, Y.nrows = r
  inputDim : ∀ us ∈ d.inputs, ∀ U ∈ us, U.nrows = m

/-- Both reduced-order models have the same parts and estimator; their models agree at all samples; with `decisive` they have
the same operator matrix and agree for all states and inputs. -/
structure SameRepeated {S S' : Type} (R : FRom K T B S) (R₁ : FRom K T B S) (R₂ : FRom K T B S') (d : TrainData K) (r m : Nat)
    (decisive : Prop) : Prop where
  parts : R₂.rom = R₁.rom
  ddt : R₂.ddt = R₁.ddt
  onSamples : ∀ x ∈ d.samples, R₂.model.rhs x.q x.u = R₁.model.rhs x.q x.u
  matrix : decisive → R₂.model.operatorMatrix = R₁.model.operatorMatrix
  everywhere : decisive → ∀ q u, q.length = r → (∀ o ∈ R.model.ops, InputOK o.kind m u) →
    R₂.model.rhs q u = R₁.model.rhs q u

omit [LinearOrder K] [IsStrictOrderedRing K] in
theorem repeated_trainings {S S' : Type} {I : SolverI K S} {I' : SolverI K S'} {R R₁ : FRom K T B S} {R' R₂ : FRom K T B S'}
    {hasL hasU fitT fitB : Bool} {xs ys : List (TrajArgs K)} {d : TrainData K} {k r m : Nat}
    (h : RepeatedTrainings I I' R R₁ R' R₂ hasL hasU fitT fitB xs ys d k r m) :
    R₂.rom = R₁.rom ∧ R₂.ddt = R₁.ddt ∧ ∃ (t : Training K S) (t' : Training K S'), t.before = R.model ∧ t'.before = R'.model ∧
      t.after = R₁.model ∧ t'.after = R₂.model ∧ t.samples = d.samples ∧ t.Done I r m ∧ t'.Done I' r m ∧ Repeats k t t' := by
  obtain ⟨P, d₁, a1, a2, a3, a4⟩ := fitAll_training I R R₁ h.inv h.learns _ _ _ _ _ h.first
  obtain ⟨P', d₂, b1, b2, b3, b4⟩ := fitAll_training I' R' R₂ h.inv' h.learns' _ _ _ _ _ h.second
  obtain rfl : d₁ = d := by
    have := h.data
    rw [a1] at this
    exact Except.ok.inj this
  obtain ⟨p1, p2⟩ := process_keeps_rest _ _ _ _ _ _ _ _ a1
  obtain ⟨q1, q2⟩ := process_keeps_rest _ _ _ _ _ _ _ _ b1
  have hrom : P'.rom = P.rom := by
    rcases h.parts with e | e
    · rw [p2 e, q2 e, h.rom]
    · rw [← a2, ← b2, e]
  have hddt : P'.ddt = P.ddt := by rw [p1, q1]; exact h.ddt
  obtain ⟨ts, ts', rfl, rfl, hts⟩ := repeated_data R P R' P' hrom hddt _ _ _ _ xs ys k h.perm d₁ d₂ a1 b1
  have hmem : ∀ x ∈ ts', x ∈ ts := fun x hx => by
    obtain ⟨l, hl, hxl⟩ := mem_flatten.1 (hts.mem_iff.1 hx)
    rw [(mem_replicate.1 hl).2] at hxl
    exact hxl
  obtain ⟨t, t1, t2, t3, t4⟩ := a4 r m h.pos h.aligned h.dim h.inputDim
  obtain ⟨t', t1', t2', t3', t4'⟩ := b4 r m h.pos
    ((asData_aligned _ _).2 fun x hx => (asData_aligned _ _).1 h.aligned x (hmem x hx))
    (fun Y hY => h.dim Y (by
      obtain ⟨x, hx, rfl⟩ := mem_map.1 hY
      exact mem_map_of_mem (hmem x hx)))
    (by
      cases hasU with
      | false => intro us hus; cases hus
      | true =>
        intro us hus U hU
        cases hus
        obtain ⟨x, hx, rfl⟩ := mem_map.1 hU
        exact h.inputDim _ rfl _ (mem_map_of_mem (hmem x hx)))
  refine ⟨by rw [a2, b2, hrom], by rw [a3, b3, hddt], t, t', t1, t1', t2, t2', t3, t4, t4', by rw [t1, t1', h.slots], ?_⟩
  rw [t3, t3', asData_samples, asData_samples, ← flatMap_repeat]
  exact hts.flatMap_right _

/-- **C132** (reduced-order models, `L2Solver`). Training a reduced-order model with every trajectory `k` times, in any order,
is training it with every trajectory once and a regularizer that is smaller by the factor `√k`. -/
theorem C132_rom_l2 (svd svd' : Mat K → Except Err (Svd K)) (hsvd : ∀ D u, svd D = .ok u → IsSVD D u)
    (hsvd' : ∀ D u, svd' D = .ok u → IsSVD D u) {R R₁ R' R₂ : FRom K T B (L2 K K)} {hasL hasU fitT fitB : Bool}
    {xs ys : List (TrajArgs K)} {d : TrainData K} {k r m : Nat} {lam lam' : K} (hl : lam' ^ 2 = k * lam ^ 2)
    (hlam : ∀ s ∈ R.model.solver, s.reg = some lam) (hlam' : ∀ s ∈ R'.model.solver, s.reg = some lam')
    (h : RepeatedTrainings (l2Solver svd) (l2Solver svd') R R₁ R' R₂ hasL hasU fitT fitB xs ys d k r m) :
    SameRepeated R R₁ R₂ d r m (lam ≠ 0 ∨
      Determines R.model.toInfer (R.model.toInfer.map fun o => o.dim r m).sum d.samples) := by
  obtain ⟨e1, e2, t, t', t1, t1', t2, t2', t3, t4, t4', hc⟩ := repeated_trainings h
  have key := C132_l2 svd svd' hsvd hsvd' t t' r m k h.some lam lam' hl t4 t4' (t1 ▸ hlam) (t1' ▸ hlam') hc
  have e : (lam ≠ 0 ∨ Determines R.model.toInfer (R.model.toInfer.map fun o => o.dim r m).sum d.samples) →
      lam ≠ 0 ∨ t.Decided r m := fun hd => by rw [Training.Decided, t1, t3]; exact hd
  exact ⟨e1, e2, t2 ▸ t2' ▸ t3 ▸ key.onSamples, fun hd => t2 ▸ t2' ▸ key.matrix (e hd),
    fun hd => t1 ▸ t2 ▸ t2' ▸ key.everywhere (e hd)⟩

/-- **C132** (reduced-order models, `PlainSolver`). Without regularization it does not matter how often the trajectories are
given. -/
theorem C132_rom_plain (lstsq lstsq' : Mat K → Mat K → Except Err (Mat K)) (hls : ∀ A B X, lstsq A B = .ok X → IsLstsq A B X)
    (hls' : ∀ A B X, lstsq' A B = .ok X → IsLstsq A B X) {R R₁ R' R₂ : FRom K T B (Plain K)} {hasL hasU fitT fitB : Bool}
    {xs ys : List (TrajArgs K)} {d : TrainData K} {k r m : Nat}
    (h : RepeatedTrainings (plainSolver lstsq) (plainSolver lstsq') R R₁ R' R₂ hasL hasU fitT fitB xs ys d k r m) :
    SameRepeated R R₁ R₂ d r m (Determines R.model.toInfer (R.model.toInfer.map fun o => o.dim r m).sum d.samples) := by
  obtain ⟨e1, e2, t, t', t1, t1', t2, t2', t3, t4, t4', hc⟩ := repeated_trainings h
  have key := C132_plain lstsq lstsq' hls hls' t t' r m k h.some t4 t4' hc
  exact ⟨e1, e2, t2 ▸ t2' ▸ t3 ▸ key.onSamples, fun hd => t2 ▸ t2' ▸ key.matrix (by rw [Training.Decided, t1, t3]; exact hd),
    fun hd => t1 ▸ t2 ▸ t2' ▸ key.everywhere (by rw [Training.Decided, t1, t3]; exact hd)⟩

end

/-! ### Non-vacuity -/

/-- A least-squares routine that also knows the data of the trajectories given twice. -/
def repLs (A B : Mat ℚ) : Except Err (Mat ℚ) :=
  if A = ⟨6, 2, [[1, 0], [1, 1], [1, 3], [1, 0], [1, 1], [1, 3]]⟩ ∧ B = ⟨6, 1, [[1], [3], [7], [1], [3], [7]]⟩ then
    .ok ⟨2, 1, [[1], [2]]⟩
  else romLs A B

theorem repLs_spec (A B X : Mat ℚ) (h : repLs A B = .ok X) : IsLstsq A B X := by
  unfold repLs at h
  split at h
  · rename_i hc
    obtain ⟨rfl, rfl⟩ := hc
    injection h with h
    subst h
    refine ⟨by decide, rfl, rfl, ?_⟩
    intro j hj
    obtain rfl : j = 0 := by simp at hj; exact hj
    refine ⟨rfl, fun o' _ => ?_⟩
    have : sumSq (vsub (matVec [[1, 0], [1, 1], [1, 3], [1, 0], [1, 1], [1, 3]] (col [[(1 : ℚ)], [2]] 0))
        (col [[1], [3], [7], [1], [3], [7]] 0)) = 0 := by decide +kernel
    simp only
    rw [this]
    exact sumSq_nonneg _
  · exact romLs_spec A B X h

theorem rep_two : RepeatedTrainings (plainSolver romLs) (plainSolver repLs) ordRom
    (ordRom.fitAll (plainSolver romLs) false false false false ordTraj).1 ordRom
    (ordRom.fitAll (plainSolver repLs) false false false false (ordTraj ++ ordTraj)).1 false false false false ordTraj
    (ordTraj ++ ordTraj) ordData 2 1 0 where
  inv := ordModel_inv _ _
  inv' := ordModel_inv _ _
  learns := rfl
  learns' := rfl
  slots := rfl
  rom := rfl
  ddt := rfl
  some := by omega
  perm := by simp [replicate]
  first := Prod.ext rfl (by decide +kernel)
  second := Prod.ext rfl (by decide +kernel)
  parts := .inl ⟨rfl, rfl⟩
  data := by decide +kernel
  aligned := ord_two.aligned
  pos := by omega
  dim := by decide +kernel
  inputDim := by simp [ordData]

-- all hypotheses of `C132_rom_plain` hold for two trajectories given twice
example : (ordRom.fitAll (plainSolver repLs) false false false false (ordTraj ++ ordTraj)).1.model.operatorMatrix =
    (ordRom.fitAll (plainSolver romLs) false false false false ordTraj).1.model.operatorMatrix :=
  (C132_rom_plain romLs repLs romLs_spec repLs_spec rep_two).matrix ord_determines

end Opinf
