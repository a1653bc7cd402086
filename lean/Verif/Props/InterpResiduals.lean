import Verif.Props.Coordinates
import Verif.Props.InterpTraining

/-!
# C116: the residuals of interpolatory models, in terms of `rhs(mu, q, u)`

Specification: sums over the samples of one training parameter.
-/

namespace Opinf

open List

variable {K S : Type} [Field K] [LinearOrder K]

/-- The right-hand side of a parametric model, if it does not raise. -/
def PModel.valueAt (lib : ItpLib K) (M : PModel K S) (mu : Par K) (q : List K) (u : Option (List K)) : List K :=
  match (M.rhs lib mu q u).2 with
  | .ok y => y
  | .error _ => []

variable [IsStrictOrderedRing K]

theorem trained_rhs {lib : ItpLib K} {I : SolverI K S} {M M' : IModel K S} {mu : Par K} {Q : List (List K)}
    {V : Option (List (List K))} {L : List (List K)} {r m : Nat} {t : Training K S} (ht : TrainedAt lib I M M' mu Q V L r m t)
    (hI : I.Shaped r) (hr : 0 < r) (q : List K) (u : Option (List K)) :
    (M'.base.rhs lib mu q u).2 = t.after.rhs q u := by
  refine rhs_of_evals lib M'.base t.after mu r m hr (fun h0 => ?_) ht.evaluates q u
  have h1 := ht.evaluates
  rw [PModel.ops, h0, map_nil, forall₂_nil_left_iff] at h1
  exact (done_trained ht.done hI).2.1 h1

theorem trained_value {lib : ItpLib K} {I : SolverI K S} {M M' : IModel K S} {mu : Par K} {Q : List (List K)}
    {V : Option (List (List K))} {L : List (List K)} {r m : Nat} {t : Training K S} (ht : TrainedAt lib I M M' mu Q V L r m t)
    (hI : I.Shaped r) (hr : 0 < r) (q : List K) (u : Option (List K)) :
    M'.base.valueAt lib mu q u = t.after.value q u := by
  rw [PModel.valueAt, trained_rhs ht hI hr]
  rfl

/-! ### Property theorems -/

/-- **C116** (interpolatory models, every entry of the data). Without regularization, at every training parameter `mu` and for the
samples of `mu`: `rhs(mu, q, u)` does not raise, each component of the residual is orthogonal to each entry of the data
vector, and if a constant operator is learned, the right-hand side has the mean of the left-hand sides. -/
theorem C116_interpolatory_moments (lib : ItpLib K) (lstsq : Mat K → Mat K → Except Err (Mat K))
    (hls : ∀ A B X, lstsq A B = .ok X → IsLstsq A B X) (plain : Plain K) (l2 : Int → Plain K) (M M' : IModel K (Plain K))
    (ps : List (Par K)) (states lhs : List (Arg K)) (inputs : Option (List (Arg K))) (r m : Nat)
    (hA : IFitArgs lib M ps states lhs inputs r m) (hall : ∀ s ∈ M.base.slots, s.infer = true)
    (hfit : M.fit lib plain l2 (plainSolver lstsq) ps states lhs inputs = (M', .ok ())) (i : Nat) (mu : Par K) (Q : List (List K))
    (V : Option (List (List K))) (L : Arg K)
    (hi : (trainData M.base.hasInputs ps states inputs)[i]? = some (mu, Q, V)) (hL : lhs[i]? = some L) :
    (∀ x ∈ rowSamples Q V (atleast2d L).2, (M'.base.rhs lib mu x.q x.u).2 = .ok (M'.base.valueAt lib mu x.q x.u) ∧
      (M'.base.valueAt lib mu x.q x.u).length = r) ∧
    (∀ k j, k < r → j < ((M.base.slots.map fun s => s.op.kind).map fun o => o.dim r m).sum →
      ((rowSamples Q V (atleast2d L).2).map fun x => (vsub x.z (M'.base.valueAt lib mu x.q x.u)).getD k 0 *
        (dataVector (M.base.slots.map fun s => s.op.kind) x.q (x.u.getD [])).getD j 0).sum = 0) ∧
    ((∃ s ∈ M.base.slots, s.op.kind = .const) → ∀ k, k < r →
      ((rowSamples Q V (atleast2d L).2).map fun x => x.z.getD k 0).sum =
        ((rowSamples Q V (atleast2d L).2).map fun x => (M'.base.valueAt lib mu x.q x.u).getD k 0).sum) := by
  obtain ⟨t, O, ht, hO⟩ := C116_interpolatory_plain lib lstsq hls plain l2 M M' ps states lhs inputs r m hA hall hfit i mu Q V L
    hi hL
  have hI := plainSolver_shaped lstsq (fun A B X h => ⟨(hls A B X h).wf, (hls A B X h).rows, (hls A B X h).cols⟩) r
  obtain ⟨e1, -⟩ := slots_kinds ht.slots
  simp only [trained_value ht hI hA.base.r_pos, trained_rhs ht hI hA.base.r_pos]
  rw [← ht.samples]
  refine ⟨fun x hx => ?_, fun k j hk hj => ?_, fun ⟨s, hs, hc⟩ k hk => ?_⟩
  · obtain ⟨h1, -, h3, -⟩ := hO.has.value hx
    exact ⟨h1, h3⟩
  · rw [← e1] at hj ⊢
    exact C116_moments hO hk hj
  · exact C116_mean hO (by rw [e1]; exact mem_map.2 ⟨s, hs, hc⟩) hk

/-! ### Non-vacuity -/

/-- An interpolatory model with a constant and a linear operator. -/
def meanI : IModel ℚ (Plain ℚ) :=
  ⟨⟨[⟨.itp ⟨.const, none, some 1, none, none, none⟩, true⟩, ⟨.itp ⟨.lin, none, some 1, none, none, none⟩, true⟩], false, none, some 0,
    false, some ⟨none⟩, some 1, none⟩, none, []⟩

/-- Its training at the parameters 1 and 2 with data it cannot fit exactly. -/
def meanIFit := meanI.fit toyLib ⟨none⟩ (fun _ => ⟨none⟩) (plainSolver resLs) [.scalar 1, .scalar 2]
  [.mat 1 [[0], [1], [2]], .mat 1 [[0], [1], [2]]] [.mat 1 [[1], [0], [2]], .mat 1 [[3], [3], [9]]] none

theorem meanI_args : IFitArgs toyLib meanI [.scalar 1, .scalar 2] [.mat 1 [[0], [1], [2]], .mat 1 [[0], [1], [2]]]
    [.mat 1 [[1], [0], [2]], .mat 1 [[3], [3], [9]]] none 1 0 where
  base := by
    refine ⟨by simp, by simp [meanI], ?_, ?_, by simp, by decide, ?_, by simp, by simp, ?_, ?_⟩
    · intro a ha
      simp only [mem_cons, not_mem_nil, or_false, or_self] at ha
      subst ha; simp [Arg.WF, atleast2d]
    · intro a ha
      simp only [mem_cons, not_mem_nil, or_false] at ha
      rcases ha with rfl | rfl <;> simp [Arg.WF, atleast2d]
    · intro a ha
      simp only [mem_cons, not_mem_nil, or_false, or_self] at ha
      subst ha; rfl
    · intro o ho
      simp only [PModel.ops, meanI, map_cons, map_nil, mem_cons, not_mem_nil, or_false] at ho
      rcases ho with rfl | rfl <;> simp [POp.kind, OpKind.hasInputs]
    · intro s hs hi mu hmu
      simp only [meanI, mem_cons, not_mem_nil, or_false] at hs
      rcases hs with rfl | rfl <;> simp at hi
  learns := rfl
  infer := ⟨_, mem_cons_self, rfl⟩
  itp := by
    intro s hs
    simp only [meanI, mem_cons, not_mem_nil, or_false] at hs
    rcases hs with rfl | rfl <;> exact ⟨_, rfl, by simp⟩
  nodes := by
    intro s hs
    simp only [meanI, mem_cons, not_mem_nil, or_false] at hs
    rcases hs with rfl | rfl <;>
      exact ⟨by decide +kernel, fun c _ => toy_node c, fun _ => ⟨toy_node _, toy_node _⟩⟩
  inputs := rfl

-- all hypotheses of `C116_interpolatory_plain` and `C116_interpolatory_moments` hold for data that are not fitted exactly
example : ((rowSamples [[0], [1], [2]] none [[3], [3], [9]]).map fun x => x.z.getD 0 0).sum =
    ((rowSamples [[0], [1], [2]] none [[3], [3], [9]]).map fun x =>
      (meanIFit.1.base.valueAt toyLib (.scalar 2) x.q x.u).getD 0 0).sum :=
  (C116_interpolatory_moments toyLib resLs resLs_spec _ _ meanI meanIFit.1 _ _ _ none 1 0 meanI_args
    (by intro s hs; simp only [meanI, mem_cons, not_mem_nil, or_false] at hs; rcases hs with rfl | rfl <;> rfl)
    (show meanIFit = _ from Prod.ext rfl (by decide +kernel)) 1 (.scalar 2) [[0], [1], [2]] none (.mat 1 [[3], [3], [9]]) rfl
    rfl).2.2 ⟨_, mem_cons_self, rfl⟩ 0 (by decide)

example : [0, 1, 2].map (fun q => meanIFit.1.base.valueAt toyLib (.scalar 2) [q] none) = [[2], [5], [8]] := by decide +kernel

end Opinf
