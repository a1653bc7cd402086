import Verif.Props.InterpModel
import Verif.Props.Repeated

/-!
# Interpolatory models are trained like ordinary models at each training parameter: C116 and C132
-/

namespace Opinf

open List

variable {K S : Type}

/-- The samples of one training parameter: states `Q`, inputs `V` and left-hand sides `L`, one row per snapshot. -/
def rowSamples (Q : List (List K)) (V : Option (List (List K))) (L : List (List K)) : List (TrainSample K) :=
  (range Q.length).map fun j => ⟨Q.getD j [], L.getD j [], V.map fun U => U.getD j []⟩

section
variable [Field K] [LinearOrder K]

/-- The training of an interpolatory model at the training parameter `mu`, all operators being learned, is a training `t` of an
ordinary model with the same kinds of operators and the same solver with the data of `mu`; the trained interpolatory model
evaluates at `mu` to the operators of the trained ordinary model. -/
structure TrainedAt (lib : ItpLib K) (I : SolverI K S) (M M' : IModel K S) (mu : Par K) (Q : List (List K))
    (V : Option (List (List K))) (L : List (List K)) (r m : Nat) (t : Training K S) : Prop where
  slots : t.before.slots = M.base.slots.map fun s => ⟨⟨s.op.kind, none⟩, true⟩
  solver : t.before.solver = M.base.solver
  samples : t.samples = rowSamples Q V L
  done : t.Done I r m
  evaluates : Forall₂ (fun o op => POp.EvalsTo lib o mu r m op) M'.base.ops t.after.ops

theorem trained_at (lib : ItpLib K) (plain : S) (l2 : Int → S) (I : SolverI K S) (M M' : IModel K S) (ps : List (Par K))
    (states lhs : List (Arg K)) (inputs : Option (List (Arg K))) (r m : Nat) (hA : IFitArgs lib M ps states lhs inputs r m)
    (hI : I.Shaped r) (hall : ∀ s ∈ M.base.slots, s.infer = true)
    (hfit : M.fit lib plain l2 I ps states lhs inputs = (M', .ok ())) (i : Nat) (mu : Par K) (Q : List (List K))
    (V : Option (List (List K))) (L : Arg K)
    (hi : (trainData M.base.hasInputs ps states inputs)[i]? = some (mu, Q, V)) (hL : lhs[i]? = some L) :
    ∃ t, TrainedAt lib I M M' mu Q V (atleast2d L).2 r m t := by
  obtain ⟨N0, N', Z, h1, h2, h3, h4, h5, h6, h7, h8, h9, h10, -, -, h13⟩ :=
    C19_decouples lib plain l2 I M M' ps states lhs inputs r m hA hI hfit i mu Q V L hi hL
  have hknown : M.base.known = [] := by
    rw [PModel.known, filter_eq_nil_iff.2 (fun s hs => by simp [hall s hs]), map_nil]
  refine ⟨⟨N0, .mat r Q, .mat r Z, V.map fun U => .mat m U, N'⟩, ?_, h3, ?_, ?_, h13⟩
  · rw [h4]
    refine map_congr_left fun s hs => ?_
    simp only [startOp, hall s hs, if_true]
  · show (range Q.length).map (fun j => (⟨Q.getD j [], Z.getD j [], inputAt (V.map fun U => Arg.mat m U) j⟩ :
      TrainSample K)) = _
    refine map_congr_left fun j hj => ?_
    have hj := mem_range.1 hj
    have hy : ∃ y, (dataSamples [(mu, Q, V)])[j]? = some y := by
      rw [← Option.isSome_iff_exists, isSome_getElem?]
      cases V with
      | none => simp [dataSamples]; exact hj
      | some U => simp [dataSamples, (h9 U rfl).1]; exact hj
    obtain ⟨y, hy⟩ := hy
    obtain ⟨l, w, g1, g2, g3, ⟨ws, g4, g5⟩, g6⟩ := h10 j y hy
    rw [hknown] at g4
    cases g4
    have hz : Z.getD j [] = (atleast2d L).2.getD j [] := by
      rw [getD_eq_getElem?_getD, getD_eq_getElem?_getD, g6, g1]
      simp only [Option.getD_some, g5, foldl_nil]
      exact vsub_zeros _ l g2
    have hu : inputAt (V.map fun U => Arg.mat m U) j = V.map fun U => U.getD j [] := by
      cases V <;> rfl
    rw [hu, hz]
  · refine ⟨h1, h2, h6, h7, fun a ha => ?_, rfl, hA.base.r_pos, fun a ha => ?_, h5⟩
    · obtain ⟨U, hU, rfl⟩ := Option.map_eq_some_iff.1 ha
      exact (h9 U hU).2
    · obtain ⟨U, hU, rfl⟩ := Option.map_eq_some_iff.1 ha
      rfl

end

section
variable [Field K] [LinearOrder K] [IsStrictOrderedRing K]

omit [LinearOrder K] [IsStrictOrderedRing K] in
theorem slots_kinds {S : Type} {N : Model K S} {slots : List (PSlot K)}
    (h : N.slots = slots.map fun s => ⟨⟨s.op.kind, none⟩, true⟩) :
    N.toInfer = slots.map (fun s => s.op.kind) ∧ N.ops.map Op.kind = slots.map fun s => s.op.kind := by
  constructor
  · rw [Model.toInfer, h, filter_eq_self.2, map_map]
    · rfl
    · intro s hs
      obtain ⟨s', -, rfl⟩ := mem_map.1 hs
      rfl
  · rw [Model.ops, h, map_map, map_map]
    rfl

/-- **C116** (interpolatory models, `L2Solver`). At every training parameter the residuals of the trained interpolatory model
are orthogonal to everything an ordinary model with the same operators could have learned from the data of that parameter. -/
theorem C116_interpolatory_l2 (lib : ItpLib K) (svd : Mat K → Except Err (Svd K)) (hsvd : ∀ D u, svd D = .ok u → IsSVD D u)
    (plain : L2 K K) (l2 : Int → L2 K K) (M M' : IModel K (L2 K K)) (ps : List (Par K)) (states lhs : List (Arg K))
    (inputs : Option (List (Arg K))) (r m : Nat) (hA : IFitArgs lib M ps states lhs inputs r m)
    (hall : ∀ s ∈ M.base.slots, s.infer = true) (lam : K) (hlam : ∀ s ∈ M.base.solver, s.reg = some lam)
    (hfit : M.fit lib plain l2 (l2Solver svd) ps states lhs inputs = (M', .ok ())) (i : Nat) (mu : Par K) (Q : List (List K))
    (V : Option (List (List K))) (L : Arg K)
    (hi : (trainData M.base.hasInputs ps states inputs)[i]? = some (mu, Q, V)) (hL : lhs[i]? = some L) :
    ∃ t O, TrainedAt lib (l2Solver svd) M M' mu Q V (atleast2d L).2 r m t ∧
      t.Fitted r m (fun a b => lam ^ 2 * dot a b) O := by
  obtain ⟨t, ht⟩ := trained_at lib plain l2 _ M M' ps states lhs inputs r m hA
    (l2Solver_shaped svd (fun D u h => ⟨(hsvd D u h).psiWF, (hsvd D u h).psiCols⟩) _) hall hfit i mu Q V L hi hL
  obtain ⟨O, hO⟩ := C116_l2 svd hsvd t r m lam ht.done (by rw [ht.solver]; exact hlam)
  exact ⟨t, O, ht, hO⟩

/-- **C116** (interpolatory models, `PlainSolver`). Without regularization the residuals are orthogonal to all outputs. -/
theorem C116_interpolatory_plain (lib : ItpLib K) (lstsq : Mat K → Mat K → Except Err (Mat K))
    (hls : ∀ A B X, lstsq A B = .ok X → IsLstsq A B X) (plain : Plain K) (l2 : Int → Plain K) (M M' : IModel K (Plain K))
    (ps : List (Par K)) (states lhs : List (Arg K)) (inputs : Option (List (Arg K))) (r m : Nat)
    (hA : IFitArgs lib M ps states lhs inputs r m) (hall : ∀ s ∈ M.base.slots, s.infer = true)
    (hfit : M.fit lib plain l2 (plainSolver lstsq) ps states lhs inputs = (M', .ok ())) (i : Nat) (mu : Par K) (Q : List (List K))
    (V : Option (List (List K))) (L : Arg K)
    (hi : (trainData M.base.hasInputs ps states inputs)[i]? = some (mu, Q, V)) (hL : lhs[i]? = some L) :
    ∃ t O, TrainedAt lib (plainSolver lstsq) M M' mu Q V (atleast2d L).2 r m t ∧ t.Fitted r m (fun _ _ => 0) O := by
  obtain ⟨t, ht⟩ := trained_at lib plain l2 _ M M' ps states lhs inputs r m hA
    (plainSolver_shaped lstsq (fun A B X h => ⟨(hls A B X h).wf, (hls A B X h).rows, (hls A B X h).cols⟩) _) hall hfit i mu Q V L
    hi hL
  obtain ⟨O, hO⟩ := C116_plain lstsq hls t r m ht.done
  exact ⟨t, O, ht, hO⟩

/-- **C116** (interpolatory models, `TikhonovSolver`). -/
theorem C116_interpolatory_tikhonov (lib : ItpLib K) (lstsq posSolve : Mat K → Mat K → Except Err (Mat K))
    (hls : ∀ A B X, lstsq A B = .ok X → IsLstsq A B X)
    (hps : ∀ A B X, A.nrows = B.nrows → A.nrows = A.ncols → posSolve A B = .ok X → IsSolution A B X)
    (plain : Tik (Mat K) K) (l2 : Int → Tik (Mat K) K) (M M' : IModel K (Tik (Mat K) K))
    (ps : List (Par K)) (states lhs : List (Arg K)) (inputs : Option (List (Arg K))) (r m : Nat)
    (hA : IFitArgs lib M ps states lhs inputs r m) (hall : ∀ s ∈ M.base.slots, s.infer = true) (G : Mat K) (hwf : G.WF)
    (hG : ∀ s ∈ M.base.solver, s.reg = some G)
    (hfit : M.fit lib plain l2 (tikSolver lstsq posSolve) ps states lhs inputs = (M', .ok ())) (i : Nat) (mu : Par K)
    (Q : List (List K)) (V : Option (List (List K))) (L : Arg K)
    (hi : (trainData M.base.hasInputs ps states inputs)[i]? = some (mu, Q, V)) (hL : lhs[i]? = some L) :
    ∃ t O, TrainedAt lib (tikSolver lstsq posSolve) M M' mu Q V (atleast2d L).2 r m t ∧
      t.Fitted r m (fun a b => dot (matVec G.rows a) (matVec G.rows b)) O := by
  obtain ⟨t, ht⟩ := trained_at lib plain l2 _ M M' ps states lhs inputs r m hA
    (tikSolver_shaped lstsq posSolve
      (fun A B X h => ⟨(hls A B X h).wf, (hls A B X h).rows, (hls A B X h).cols⟩)
      (fun A B X e q h => ⟨(hps A B X e q h).wf, (hps A B X e q h).rows.trans q.symm, (hps A B X e q h).cols⟩) _) hall hfit i mu Q V
    L hi hL
  obtain ⟨O, hO⟩ := C116_tikhonov lstsq posSolve hls hps t r m ht.done G hwf (by rw [ht.solver]; exact hG)
  exact ⟨t, O, ht, hO⟩

/-- **C132** (interpolatory models, `L2Solver`). Two interpolatory models with the same kinds of operators, all learned, are
trained, the second with `k` times the data of the first at the parameter `mu`, in any order, and a regularizer `λ'` with
`λ'² = k λ²`; the training parameters may be in another order and the data of the other parameters any. Then at `mu` both
evaluate to models that agree at all samples, and for all states and inputs if `λ ≠ 0` or the data determine the operators. -/
theorem C132_interpolatory_l2 (lib lib' : ItpLib K) (svd svd' : Mat K → Except Err (Svd K))
    (hsvd : ∀ D u, svd D = .ok u → IsSVD D u) (hsvd' : ∀ D u, svd' D = .ok u → IsSVD D u)
    (plain plain' : L2 K K) (l2 l2' : Int → L2 K K) (M M' N N' : IModel K (L2 K K)) (ps qs : List (Par K))
    (states lhs states' lhs' : List (Arg K)) (inputs inputs' : Option (List (Arg K))) (r m : Nat)
    (hA : IFitArgs lib M ps states lhs inputs r m) (hB : IFitArgs lib' N qs states' lhs' inputs' r m)
    (hall : ∀ s ∈ M.base.slots, s.infer = true) (hall' : ∀ s ∈ N.base.slots, s.infer = true)
    (hkind : N.base.slots.map (fun s => s.op.kind) = M.base.slots.map fun s => s.op.kind) (lam lam' : K) (k : Nat) (hk : 0 < k)
    (hl : lam' ^ 2 = k * lam ^ 2) (hlam : ∀ s ∈ M.base.solver, s.reg = some lam) (hlam' : ∀ s ∈ N.base.solver, s.reg = some lam')
    (hfit : M.fit lib plain l2 (l2Solver svd) ps states lhs inputs = (M', .ok ()))
    (hfit' : N.fit lib' plain' l2' (l2Solver svd') qs states' lhs' inputs' = (N', .ok ())) (i j : Nat) (mu : Par K)
    (Q Q' : List (List K)) (V V' : Option (List (List K))) (L L' : Arg K)
    (hi : (trainData M.base.hasInputs ps states inputs)[i]? = some (mu, Q, V)) (hL : lhs[i]? = some L)
    (hj : (trainData N.base.hasInputs qs states' inputs')[j]? = some (mu, Q', V')) (hL' : lhs'[j]? = some L')
    (hrep : (rowSamples Q' V' (atleast2d L').2).Perm (replicate k (rowSamples Q V (atleast2d L).2)).flatten) :
    ∃ A B : Model K (L2 K K), Forall₂ (fun o op => POp.EvalsTo lib o mu r m op) M'.base.ops A.ops ∧
      Forall₂ (fun o op => POp.EvalsTo lib' o mu r m op) N'.base.ops B.ops ∧
      (∀ x ∈ rowSamples Q V (atleast2d L).2, B.rhs x.q x.u = A.rhs x.q x.u) ∧
      (lam ≠ 0 ∨ Determines (M.base.slots.map fun s => s.op.kind)
          ((M.base.slots.map fun s => s.op.kind).map fun o => o.dim r m).sum (rowSamples Q V (atleast2d L).2) →
        B.operatorMatrix = A.operatorMatrix ∧ ∀ q u, q.length = r → (∀ s ∈ M.base.slots, InputOK s.op.kind m u) →
          B.rhs q u = A.rhs q u) := by
  obtain ⟨t, ht⟩ := trained_at lib plain l2 _ M M' ps states lhs inputs r m hA
    (l2Solver_shaped svd (fun D u h => ⟨(hsvd D u h).psiWF, (hsvd D u h).psiCols⟩) _) hall hfit i mu Q V L hi hL
  obtain ⟨t', ht'⟩ := trained_at lib' plain' l2' _ N N' qs states' lhs' inputs' r m hB
    (l2Solver_shaped svd' (fun D u h => ⟨(hsvd' D u h).psiWF, (hsvd' D u h).psiCols⟩) _) hall' hfit' j mu Q' V' L' hj hL'
  have hslots : t'.before.slots = t.before.slots := by
    rw [ht.slots, ht'.slots]
    have := congrArg (map fun o : OpKind => (⟨⟨o, none⟩, true⟩ : Slot K)) hkind
    rwa [map_map, map_map] at this
  have key := C132_l2 svd svd' hsvd hsvd' t t' r m k hk lam lam' hl ht.done ht'.done (by rw [ht.solver]; exact hlam)
    (by rw [ht'.solver]; exact hlam') ⟨hslots, by rw [ht.samples, ht'.samples]; exact hrep⟩
  obtain ⟨e1, e2⟩ := slots_kinds ht.slots
  refine ⟨t.after, t'.after, ht.evaluates, ht'.evaluates, ht.samples ▸ key.onSamples, fun hd => ?_⟩
  have hd' : lam ≠ 0 ∨ t.Decided r m := by rw [Training.Decided, e1, ht.samples]; exact hd
  refine ⟨key.matrix hd', fun q u hq hu => key.everywhere hd' q u hq fun o ho => ?_⟩
  have : o.kind ∈ M.base.slots.map fun s => s.op.kind := by rw [← e2]; exact mem_map_of_mem ho
  obtain ⟨s, hs, e⟩ := mem_map.1 this
  rw [← e]
  exact hu s hs

/-- **C132** (interpolatory models, `PlainSolver`). Without regularization it does not matter how often the data of `mu` are
given. -/
theorem C132_interpolatory_plain (lib lib' : ItpLib K) (lstsq lstsq' : Mat K → Mat K → Except Err (Mat K))
    (hls : ∀ A B X, lstsq A B = .ok X → IsLstsq A B X) (hls' : ∀ A B X, lstsq' A B = .ok X → IsLstsq A B X)
    (plain plain' : Plain K) (l2 l2' : Int → Plain K) (M M' N N' : IModel K (Plain K)) (ps qs : List (Par K))
    (states lhs states' lhs' : List (Arg K)) (inputs inputs' : Option (List (Arg K))) (r m : Nat)
    (hA : IFitArgs lib M ps states lhs inputs r m) (hB : IFitArgs lib' N qs states' lhs' inputs' r m)
    (hall : ∀ s ∈ M.base.slots, s.infer = true) (hall' : ∀ s ∈ N.base.slots, s.infer = true)
    (hkind : N.base.slots.map (fun s => s.op.kind) = M.base.slots.map fun s => s.op.kind) (k : Nat) (hk : 0 < k)
    (hfit : M.fit lib plain l2 (plainSolver lstsq) ps states lhs inputs = (M', .ok ()))
    (hfit' : N.fit lib' plain' l2' (plainSolver lstsq') qs states' lhs' inputs' = (N', .ok ())) (i j : Nat) (mu : Par K)
    (Q Q' : List (List K)) (V V' : Option (List (List K))) (L L' : Arg K)
    (hi : (trainData M.base.hasInputs ps states inputs)[i]? = some (mu, Q, V)) (hL : lhs[i]? = some L)
    (hj : (trainData N.base.hasInputs qs states' inputs')[j]? = some (mu, Q', V')) (hL' : lhs'[j]? = some L')
    (hrep : (rowSamples Q' V' (atleast2d L').2).Perm (replicate k (rowSamples Q V (atleast2d L).2)).flatten) :
    ∃ A B : Model K (Plain K), Forall₂ (fun o op => POp.EvalsTo lib o mu r m op) M'.base.ops A.ops ∧
      Forall₂ (fun o op => POp.EvalsTo lib' o mu r m op) N'.base.ops B.ops ∧
      (∀ x ∈ rowSamples Q V (atleast2d L).2, B.rhs x.q x.u = A.rhs x.q x.u) ∧
      (Determines (M.base.slots.map fun s => s.op.kind)
          ((M.base.slots.map fun s => s.op.kind).map fun o => o.dim r m).sum (rowSamples Q V (atleast2d L).2) →
        B.operatorMatrix = A.operatorMatrix ∧ ∀ q u, q.length = r → (∀ s ∈ M.base.slots, InputOK s.op.kind m u) →
          B.rhs q u = A.rhs q u) := by
  obtain ⟨t, ht⟩ := trained_at lib plain l2 _ M M' ps states lhs inputs r m hA
    (plainSolver_shaped lstsq (fun A B X h => ⟨(hls A B X h).wf, (hls A B X h).rows, (hls A B X h).cols⟩) _) hall hfit i mu Q V L
    hi hL
  obtain ⟨t', ht'⟩ := trained_at lib' plain' l2' _ N N' qs states' lhs' inputs' r m hB
    (plainSolver_shaped lstsq' (fun A B X h => ⟨(hls' A B X h).wf, (hls' A B X h).rows, (hls' A B X h).cols⟩) _) hall' hfit' j mu
    Q' V' L' hj hL'
  have hslots : t'.before.slots = t.before.slots := by
    rw [ht.slots, ht'.slots]
    have := congrArg (map fun o : OpKind => (⟨⟨o, none⟩, true⟩ : Slot K)) hkind
    rwa [map_map, map_map] at this
  have key := C132_plain lstsq lstsq' hls hls' t t' r m k hk ht.done ht'.done
    ⟨hslots, by rw [ht.samples, ht'.samples]; exact hrep⟩
  obtain ⟨e1, e2⟩ := slots_kinds ht.slots
  refine ⟨t.after, t'.after, ht.evaluates, ht'.evaluates, ht.samples ▸ key.onSamples, fun hd => ?_⟩
  have hd' : t.Decided r m := by rw [Training.Decided, e1, ht.samples]; exact hd
  refine ⟨key.matrix hd', fun q u hq hu => key.everywhere hd' q u hq fun o ho => ?_⟩
  have : o.kind ∈ M.base.slots.map fun s => s.op.kind := by rw [← e2]; exact mem_map_of_mem ho
  obtain ⟨s, hs, e⟩ := mem_map.1 this
  rw [← e]
  exact hu s hs

end

/-! ### Non-vacuity -/

/-- An interpolatory linear model with an `L2Solver` with regularizer `lam`. -/
def repI (lam : ℚ) : IModel ℚ (L2 ℚ ℚ) :=
  ⟨⟨[⟨.itp ⟨.lin, none, some 1, none, none, none⟩, true⟩], false, none, some 0, false, some ⟨some lam, none, none⟩, some 1, none⟩,
    none, []⟩

/-- Its training at the parameters 1 and 2, with one snapshot `n` times at both. -/
def repIFit (svd : Mat ℚ → Except Err (Svd ℚ)) (lam : ℚ) (n : Nat) :=
  (repI lam).fit toyLib ⟨none, none, none⟩ (fun _ => ⟨none, none, none⟩) (l2Solver svd) [.scalar 1, .scalar 2]
    [.mat 1 (replicate n [1]), .mat 1 (replicate n [1])] [.mat 1 (replicate n [3]), .mat 1 (replicate n [5])] none

theorem repI_args (lam : ℚ) (n : Nat) : IFitArgs toyLib (repI lam) [.scalar 1, .scalar 2]
    [.mat 1 (replicate n [1]), .mat 1 (replicate n [1])] [.mat 1 (replicate n [3]), .mat 1 (replicate n [5])] none 1 0 where
  base := by
    refine ⟨by simp, by simp [repI], ?_, ?_, by simp, by decide, ?_, by simp, by simp, ?_, ?_⟩
    · intro a ha
      simp only [mem_cons, not_mem_nil, or_false, or_self] at ha
      subst ha; simp [Arg.WF, atleast2d]
    · intro a ha
      simp only [mem_cons, not_mem_nil, or_false] at ha
      rcases ha with rfl | rfl <;> simp [Arg.WF, atleast2d]
    · intro a ha
      simp only [mem_cons, not_mem_nil, or_false, or_self] at ha
      subst ha; rfl
    · intro o ho
      simp only [PModel.ops, repI, map_cons, map_nil, mem_cons, not_mem_nil, or_false] at ho
      subst ho; simp [POp.kind, OpKind.hasInputs]
    · intro s hs hi mu hmu
      simp only [repI, mem_cons, not_mem_nil, or_false] at hs
      subst hs
      simp at hi
  learns := rfl
  infer := ⟨_, mem_cons_self, rfl⟩
  itp := by
    intro s hs
    simp only [repI, mem_cons, not_mem_nil, or_false] at hs
    subst hs
    exact ⟨_, rfl, by simp⟩
  nodes := by
    intro s hs
    simp only [repI, mem_cons, not_mem_nil, or_false] at hs
    subst hs
    exact ⟨by decide +kernel, fun c _ => toy_node c, fun _ => ⟨toy_node _, toy_node _⟩⟩
  inputs := rfl

theorem repI_all (lam : ℚ) : ∀ s ∈ (repI lam).base.slots, s.infer = true := by
  intro s hs
  simp only [repI, mem_cons, not_mem_nil, or_false] at hs
  subst hs
  rfl

theorem repI_fits : repIFit corSvd 1 1 = ((repIFit corSvd 1 1).1, .ok ()) ∧ repIFit repSvd 2 4 = ((repIFit repSvd 2 4).1, .ok ()) :=
  ⟨Prod.ext rfl (by decide +kernel), Prod.ext rfl (by decide +kernel)⟩

-- all hypotheses of `C116_interpolatory_l2` and `C132_interpolatory_l2` hold: one snapshot with regularizer 1, and four times
-- the snapshot with regularizer 2
example : ∃ t O, TrainedAt toyLib (l2Solver corSvd) (repI 1) (repIFit corSvd 1 1).1 (.scalar 2) [[1]] none [[5]] 1 0 t ∧
    t.Fitted 1 0 (fun a b => 1 ^ 2 * dot a b) O :=
  C116_interpolatory_l2 toyLib corSvd corSvd_spec _ _ (repI 1) _ _ _ _ none 1 0 (repI_args 1 1) (repI_all 1) 1
    (fun s hs => by cases hs; rfl) repI_fits.1 1 (.scalar 2) [[1]] none (.mat 1 [[5]]) rfl rfl

example : ∃ A B : Model ℚ (L2 ℚ ℚ),
    Forall₂ (fun o op => POp.EvalsTo toyLib o (.scalar 2) 1 0 op) (repIFit corSvd 1 1).1.base.ops A.ops ∧
    Forall₂ (fun o op => POp.EvalsTo toyLib o (.scalar 2) 1 0 op) (repIFit repSvd 2 4).1.base.ops B.ops ∧
    B.operatorMatrix = A.operatorMatrix := by
  obtain ⟨A, B, hA, hB, -, h⟩ := C132_interpolatory_l2 toyLib toyLib corSvd repSvd corSvd_spec repSvd_spec _ _ _ _ (repI 1) _
    (repI 2) _ _ _ _ _ _ _ none none 1 0 (repI_args 1 1) (repI_args 2 4) (repI_all 1) (repI_all 2) rfl 1 2 4 (by decide) (by norm_num)
    (fun s hs => by cases hs; rfl) (fun s hs => by cases hs; rfl) repI_fits.1 repI_fits.2 1 1 (.scalar 2) [[1]]
    (replicate 4 [1]) none none (.mat 1 [[5]]) (.mat 1 (replicate 4 [5])) rfl rfl rfl rfl
    (by simp [rowSamples, atleast2d, inputAt, range_succ, replicate])
  exact ⟨A, B, hA, hB, (h (.inl (by norm_num))).1⟩

end Opinf
