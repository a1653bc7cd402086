import Verif.Model.Reproject
import Verif.Props.Recover
import Verif.Lemmas.Lift

/-!
# C77: re-projected data and the intrusive model
-/

namespace Opinf

open List

variable {K : Type}

/-! ### Specification -/

/-- The input that belongs to snapshot `j`: nothing, entry `j` or column `j`. -/
inductive GivenInput : Option (Arg K) → Nat → Option (Arg K) → Prop
  | none (j : Nat) : GivenInput Option.none j Option.none
  | entry {xs : List K} {j : Nat} {x : K} : xs[j]? = some x → GivenInput (some (.vec xs)) j (some (.scalar x))
  | column {m : Nat} {cols : List (List K)} {j : Nat} {c : List K} : cols[j]? = some c →
      GivenInput (some (.mat m cols)) j (some (.vec c))

/-- `f` is the right-hand side of the full-order model `F`. -/
structure IsSystem {S : Type} [CommSemiring K] (f : FullSystem K) (F : Model K S) : Prop where
  none : ∀ q, f q Option.none = F.rhs q Option.none
  vec : ∀ q u, f q (some (.vec u)) = F.rhs q (some u)
  scalar : ∀ q x, f q (some (.scalar x)) = F.rhs q (some [x])

/-- Inputs for `k` evaluations of a model with input dimension `m`. -/
def InputsFor (m k : Nat) (hasInputs : Bool) (inputs : Option (Arg K)) : Prop :=
  hasInputs = inputs.isSome ∧ ∀ a ∈ inputs, (∀ x, a ≠ .scalar x) ∧ a.WF ∧ (atleast2d a).1 = m ∧ k ≤ (atleast2d a).2.length

/-! ### Helper lemmas -/

theorem reprojInput_iff (inputs : Option (Arg K)) (j : Nat) (u : Option (Arg K)) :
    reprojInput inputs j = .ok u ↔ GivenInput inputs j u := by
  constructor
  · intro h
    match inputs, h with
    | none, h => cases h; exact .none j
    | some (.scalar _), h => cases h
    | some (.vec xs), h =>
      simp only [reprojInput] at h
      split at h
      · cases h
      · rename_i x hx
        cases h
        exact .entry hx
    | some (.mat _ cols), h =>
      simp only [reprojInput] at h
      split at h
      · cases h
      · rename_i c hc
        cases h
        exact .column hc
  · intro h
    cases h with
    | none => rfl
    | entry h => simp only [reprojInput, h]
    | column h => simp only [reprojInput, h]

theorem reprojStep_iff [Semiring K] (f : FullSystem K) (n r : Nat) (V : List (List K)) (inputs : Option (Arg K))
    (q : List K) (j : Nat) (y : List K) : reprojStep f n r V inputs q j = .ok y ↔
      ∃ u z, GivenInput inputs j u ∧ f (matVec V q) u = .ok z ∧ z.length = n ∧ y = matVec (transpose r V) z := by
  constructor
  · intro h
    simp only [reprojStep, bind, Except.bind] at h
    split at h
    · cases h
    rename_i u hu
    split at h
    · cases h
    rename_i z hz
    split at h
    · cases h
    rename_i hl
    push Not at hl
    cases h
    exact ⟨u, z, (reprojInput_iff _ _ _).1 hu, hz, hl, rfl⟩
  · rintro ⟨u, z, hu, hz, hl, rfl⟩
    simp only [reprojStep, (reprojInput_iff _ _ _).2 hu, bind, Except.bind, hz]
    rw [if_neg (by simpa using hl)]
    rfl

theorem iterate_exists (f : List K → Nat → Except Err (List K)) (r : Nat) (q0 : List K) (h0 : q0.length = r) (n : Nat)
    (hf : ∀ q j, q.length = r → j < n → ∃ z, f q j = .ok z ∧ z.length = r) :
    ∃ L, iterate f q0 (n + 1) = .ok L ∧ ∀ l ∈ L, l.length = r := by
  induction n with
  | zero =>
    refine ⟨[q0], (iterate_iff f q0 0 [q0]).2 ⟨rfl, rfl, fun j hj => absurd hj (by omega)⟩, ?_⟩
    intro l hl
    rw [mem_singleton.1 hl, h0]
  | succ n ih =>
    obtain ⟨L, hL, hl⟩ := ih fun q j hq hj => hf q j hq (by omega)
    have hlen := ((iterate_iff f q0 n L).1 hL).1
    obtain ⟨z, hz, hzl⟩ := hf (L.getD n []) n (by
      rw [getD_eq_getElem L _ (by omega)]
      exact hl _ (getElem_mem _)) (by omega)
    refine ⟨L ++ [z], ?_, ?_⟩
    · rw [iterate_succ, hL]
      simp only [bind, Except.bind, hz]
      rfl
    · intro l hl'
      rcases mem_append.1 hl' with h | h
      · exact hl l h
      · rw [mem_singleton.1 h, hzl]

theorem IsSystem.at [CommSemiring K] {S : Type} {f : FullSystem K} {F : Model K S} (h : IsSystem f F)
    {inputs : Option (Arg K)} {j : Nat} {u : Option (Arg K)} (hu : GivenInput inputs j u) (q : List K) :
    f q u = F.rhs q (inputAt inputs j) := by
  cases hu with
  | none => rw [h.none]; rfl
  | @entry xs j x hx =>
    rw [h.scalar]
    simp only [inputAt, Option.map_some, atleast2d]
    rw [getD_eq_getElem?_getD, getElem?_map, hx]
    rfl
  | @column m cols j c hc =>
    rw [h.vec]
    simp only [inputAt, Option.map_some, atleast2d]
    rw [getD_eq_getElem?_getD, hc]
    rfl

theorem InputsFor.given {m k : Nat} {b : Bool} {inputs : Option (Arg K)} (h : InputsFor m k b inputs) {j : Nat}
    (hj : j < k) : ∃ u, GivenInput inputs j u := by
  match inputs, h with
  | none, _ => exact ⟨_, .none j⟩
  | some (.scalar x), h => exact absurd rfl ((h.2 _ rfl).1 x)
  | some (.vec xs), h =>
    have hl := (h.2 _ rfl).2.2.2
    simp only [atleast2d, length_map] at hl
    exact ⟨_, .entry (List.getElem?_eq_getElem (by omega : j < xs.length))⟩
  | some (.mat _ cols), h =>
    have hl := (h.2 _ rfl).2.2.2
    simp only [atleast2d] at hl
    exact ⟨_, .column (List.getElem?_eq_getElem (by omega : j < cols.length))⟩

theorem InputsFor.value {m k : Nat} {b : Bool} {inputs : Option (Arg K)} (h : InputsFor m k b inputs) {j : Nat}
    (hj : j < k) : b = true → ∃ v, inputAt inputs j = some v ∧ v.length = m := by
  intro hb
  cases inputs with
  | none => simp [InputsFor, hb] at h
  | some a =>
    obtain ⟨-, h2, h3, h4⟩ := h.2 a rfl
    refine ⟨(atleast2d a).2.getD j [], rfl, ?_⟩
    rw [getD_eq_getElem _ _ (by omega), ← h3]
    exact h2 _ (getElem_mem _)

theorem checkReproj_ok (inputs : Option (Arg K)) : checkReproj inputs = .ok () ↔ ∀ x, inputs ≠ some (.scalar x) := by
  match inputs with
  | none => simp [checkReproj]
  | some (.scalar x) => simp [checkReproj]
  | some (.vec _) => simp [checkReproj]
  | some (.mat _ _) => simp [checkReproj]

/-! ### Property theorems: what is computed -/

/-- **C77** (what `reproject_discrete` computes, for every system): the result is `L` exactly when the initial state has
the size of the basis, at least one state is asked for, and `L` has `niters` columns, starts with the compressed initial
state, and continues with `L_{j+1} = Vᵀ f(V L_j, u_j)`. -/
theorem C77_discrete_iff [CommSemiring K] (f : FullSystem K) (n r : Nat) (V : List (List K)) (init : List K) (niters : Int)
    (inputs : Option (Arg K)) (L : List (List K)) :
    reprojectDiscrete f n r V init niters inputs = .ok L ↔
      init.length = n ∧ 1 ≤ niters ∧ (∀ x, inputs ≠ some (.scalar x)) ∧ L.length = niters.toNat ∧
      L.getD 0 [] = matVec (transpose r V) init ∧
      ∀ j, j + 1 < niters.toNat → ∃ u z, GivenInput inputs j u ∧ f (matVec V (L.getD j [])) u = .ok z ∧ z.length = n ∧
        L.getD (j + 1) [] = matVec (transpose r V) z := by
  have key : ∀ k : Nat, iterate (reprojStep f n r V inputs) (matVec (transpose r V) init) (k + 1) = .ok L ↔
      L.length = k + 1 ∧ L.getD 0 [] = matVec (transpose r V) init ∧
      ∀ j, j + 1 < k + 1 → ∃ u z, GivenInput inputs j u ∧ f (matVec V (L.getD j [])) u = .ok z ∧ z.length = n ∧
        L.getD (j + 1) [] = matVec (transpose r V) z := by
    intro k
    rw [iterate_iff, IsOrbit]
    simp only [reprojStep_iff]
  rw [← checkReproj_ok]
  constructor
  · intro h
    simp only [reprojectDiscrete, bind, Except.bind] at h
    split at h
    · cases h
    rename_i h1
    split at h
    · cases h
    rename_i h2
    split at h
    · cases h
    rename_i h3
    split at h
    · cases h
    rename_i h4
    push Not at h1
    obtain ⟨k, hk⟩ : ∃ k, niters.toNat = k + 1 := ⟨niters.toNat - 1, by omega⟩
    rw [hk, key] at h
    rw [hk]
    exact ⟨h1, by omega, h4, h⟩
  · rintro ⟨h1, h2, h3, h4⟩
    obtain ⟨k, hk⟩ : ∃ k, niters.toNat = k + 1 := ⟨niters.toNat - 1, by omega⟩
    rw [hk, ← key] at h4
    simp only [reprojectDiscrete, bind, Except.bind]
    rw [if_neg (by simpa using h1), if_neg (by omega), if_neg (by omega), h3]
    simp only [hk]
    exact h4

/-- **C77** (error branches of `reproject_discrete`). -/
theorem C77_discrete_errors [CommSemiring K] (f : FullSystem K) (n r : Nat) (V : List (List K)) (init : List K)
    (niters : Int) (inputs : Option (Arg K)) :
    (init.length ≠ n → reprojectDiscrete f n r V init niters inputs = .error .value) ∧
    (init.length = n → niters < 0 → reprojectDiscrete f n r V init niters inputs = .error .value) ∧
    (init.length = n → niters = 0 → reprojectDiscrete f n r V init niters inputs = .error .index) := by
  refine ⟨fun h => ?_, fun h h' => ?_, fun h h' => ?_⟩
  · simp only [reprojectDiscrete, bind, Except.bind]
    rw [if_pos h]; rfl
  · simp only [reprojectDiscrete, bind, Except.bind]
    rw [if_neg (by simpa using h), if_pos h']; rfl
  · simp only [reprojectDiscrete, bind, Except.bind]
    rw [if_neg (by simpa using h), if_neg (by omega), if_pos h']; rfl

/-- **C77** (what `reproject_continuous` computes, for every system): the states are the compressed states and the
time derivatives are `Vᵀ f(V Vᵀ q_j, u_j)`, column by column. -/
theorem C77_continuous_iff [CommSemiring K] (f : FullSystem K) (n r : Nat) (V : List (List K)) (n' : Nat)
    (cols : List (List K)) (inputs : Option (Arg K)) (S D : List (List K)) :
    reprojectContinuous f n r V (.mat n' cols) inputs = .ok (S, D) ↔
      n' = n ∧ (∀ x, inputs ≠ some (.scalar x)) ∧ S = cols.map (matVec (transpose r V)) ∧ D.length = cols.length ∧
      ∀ j < cols.length, ∃ u z, GivenInput inputs j u ∧
        f (matVec V (matVec (transpose r V) (cols.getD j []))) u = .ok z ∧ z.length = n ∧
        D.getD j [] = matVec (transpose r V) z := by
  have key : ∀ S D : List (List K), (zip S (range S.length)).mapM (fun x => reprojStep f n r V inputs x.1 x.2) = .ok D ↔
      D.length = S.length ∧ ∀ j < S.length, ∃ u z, GivenInput inputs j u ∧ f (matVec V (S.getD j [])) u = .ok z ∧
        z.length = n ∧ D.getD j [] = matVec (transpose r V) z := by
    intro S D
    rw [mapM_ok_forall2, forall₂_iff_get]
    simp only [length_zip, length_range, min_self, get_eq_getElem, getElem_zip, getElem_range, reprojStep_iff]
    constructor
    · rintro ⟨h1, h2⟩
      refine ⟨h1.symm, fun j hj => ?_⟩
      have := h2 j (by simpa using hj) (by omega)
      rwa [getD_eq_getElem S _ hj, getD_eq_getElem D _ (by omega)]
    · rintro ⟨h1, h2⟩
      refine ⟨h1.symm, fun j hj hj' => ?_⟩
      have := h2 j (by omega)
      rwa [getD_eq_getElem S _ (by omega), getD_eq_getElem D _ (by omega)] at this
  have hcol : ∀ j < cols.length, (cols.map (matVec (transpose r V))).getD j [] = matVec (transpose r V) (cols.getD j []) := by
    intro j hj
    rw [getD_eq_getElem (map _ _) _ (by simpa using hj), getElem_map, getD_eq_getElem cols _ hj]
  rw [← checkReproj_ok]
  constructor
  · intro h
    simp only [reprojectContinuous] at h
    split at h
    · cases h
    rename_i h1
    push Not at h1
    simp only [bind, Except.bind] at h
    split at h
    · cases h
    rename_i h2
    split at h
    · cases h
    rename_i D' h3
    cases h
    obtain ⟨k1, k2⟩ := (key _ _).1 h3
    rw [length_map] at k1 k2
    refine ⟨h1, h2, rfl, k1, fun j hj => ?_⟩
    rw [← hcol j hj]
    exact k2 j hj
  · rintro ⟨h1, h2, rfl, h3, h4⟩
    simp only [reprojectContinuous, bind, Except.bind]
    rw [if_neg (by simpa using h1), h2]
    simp only
    rw [(key (cols.map (matVec (transpose r V))) D).2 ⟨by rw [h3, length_map], fun j hj => ?_⟩]
    · rfl
    · rw [length_map] at hj
      rw [hcol j hj]
      exact h4 j hj

/-- **C77** (error branches of `reproject_continuous`). -/
theorem C77_continuous_errors [CommSemiring K] (f : FullSystem K) (n r : Nat) (V : List (List K))
    (inputs : Option (Arg K)) :
    (∀ n' cols, n' ≠ n → reprojectContinuous f n r V (.mat n' cols) inputs = .error .value) ∧
    (∀ xs, xs.length ≠ n → reprojectContinuous f n r V (.vec xs) inputs = .error .value) ∧
    (∀ xs, xs.length = n → reprojectContinuous f n r V (.vec xs) inputs = .error .index) := by
  refine ⟨fun n' cols h => ?_, fun xs h => ?_, fun xs h => ?_⟩
  · simp only [reprojectContinuous]
    rw [if_pos h]
  · simp only [reprojectContinuous]
    rw [if_pos h]
  · simp only [reprojectContinuous]
    rw [if_neg (by simpa using h)]

/-! ### Property theorems: the intrusive model -/

section

variable [Field K] [CharZero K] [DecidableEq K]

/-- **C77** (discrete): for a full-order model and an orthonormal basis the re-projected trajectory is the trajectory of
the intrusive reduced-order model (the Galerkin projection of the full-order model), started from the compressed
initial state. -/
theorem C77_discrete_intrusive {S : Type} (solve : List (List K) → Mat K → Except Err (Mat K)) (plain : S) (l2 : Int → S)
    (F : Model K S) (n m r : Nat) (hF : F.Trained n m) (hm : F.hasInputs = false → m = 0) (hr : 0 < r)
    (f : FullSystem K) (hf : IsSystem f F) (V : List (List K)) (hV : V.length = n) (hVr : ∀ row ∈ V, row.length = r)
    (horth : gram r V V = eye r) (init : List K) (hinit : init.length = n) (niters : Nat) (hn : 1 ≤ niters)
    (inputs : Option (Arg K)) (hin : InputsFor m (niters - 1) F.hasInputs inputs) :
    ∃ (N : Model K S) (L : List (List K)), F.galerkin solve plain l2 r r V V = .ok N ∧ N.Trained r m ∧
      N.ops.map Op.kind = F.ops.map Op.kind ∧ N.hasInputs = F.hasInputs ∧ L.length = niters ∧
      reprojectDiscrete f n r V init niters inputs = .ok L ∧
      N.predict (matVec (transpose r V) init) niters (inputs.elim .none .arr) = .ok L := by
  obtain ⟨N, hN, hNr, hNk, hNi, hNt, hcomm⟩ := C18_galerkin_commutes solve plain l2 F n m r hF hr V V hV hVr hV
    (fun h => absurd horth h)
  have hNt := hNt hm
  obtain ⟨k, rfl⟩ : ∃ k, niters = k + 1 := ⟨niters - 1, by omega⟩
  have htl : (transpose r V).length = r := by simp [transpose]
  -- one step
  have hstep : ∀ q j, q.length = r → j < k → ∃ z, reprojStep f n r V inputs q j = .ok z ∧ z.length = r ∧
      N.rhs q (inputAt inputs j) = .ok z := by
    intro q j hq hj
    obtain ⟨u, hu⟩ := hin.given (by omega : j < k + 1 - 1)
    obtain ⟨y, z, h1, h2, -, h4⟩ := hcomm q (inputAt inputs j) hq (hin.value (by omega))
    have hzl : z.length = n := by rw [rhs_length F h2, length_matVec, hV]
    refine ⟨matVec (transpose r V) z, (reprojStep_iff _ _ _ _ _ _ _ _).2 ⟨u, z, hu, ?_, hzl, rfl⟩,
      by rw [length_matVec, htl], ?_⟩
    · rw [hf.at hu]; exact h2
    · rw [← h4 horth]; exact h1
  obtain ⟨L, hL, hLl⟩ := iterate_exists (reprojStep f n r V inputs) r (matVec (transpose r V) init)
    (by rw [length_matVec, htl]) k (fun q j hq hj => by
      obtain ⟨z, a, b, -⟩ := hstep q j hq hj
      exact ⟨z, a, b⟩)
  obtain ⟨o1, o2, o3⟩ := (iterate_iff _ _ k L).1 hL
  have hns : ∀ x, inputs ≠ some (.scalar x) := by
    rintro x rfl
    exact (hin.2 _ rfl).1 x rfl
  refine ⟨N, L, hN, hNt, hNk, hNi, o1, ?_, ?_⟩
  · simp only [reprojectDiscrete, bind, Except.bind]
    rw [if_neg (by simpa using hinit), if_neg (by omega), if_neg (by omega), (checkReproj_ok inputs).2 hns]
    exact hL
  · rw [C15_predict_iff]
    refine ⟨trained_check hNt, by rw [length_matVec, htl, hNr], by omega, ?_, by simpa using o1, o2, ?_⟩
    · intro hi
      rw [hNi, hin.1] at hi
      cases inputs with
      | none => simp at hi
      | some a =>
        obtain ⟨-, -, h3, h4⟩ := hin.2 a rfl
        refine ⟨by rw [h3, hNt.inputs], ?_⟩
        rw [Int.toNat_natCast]
        omega
    · intro j hj
      rw [Int.toNat_natCast] at hj
      obtain ⟨z, a, b, c⟩ := hstep (L.getD j []) j (by
        rw [getD_eq_getElem L _ (by omega)]
        exact hLl _ (getElem_mem _)) (by omega)
      have h5 := o3 j hj
      rw [a] at h5
      rw [← h5]
      by_cases hi : N.hasInputs = true
      · rw [hi]
        cases inputs with
        | none => exact c
        | some a => exact c
      · rw [← c]
        apply C21_rhs_ignores_inputs
        intro o ho
        have := hNt.inv.inputs
        rw [Bool.not_eq_true] at hi
        rw [hi] at this
        simpa using (any_eq_false.mp this.symm) o ho

/-- **C77** (continuous): the re-projected time derivatives are the right-hand side of the intrusive reduced-order model
at the compressed states. -/
theorem C77_continuous_intrusive {S : Type} (solve : List (List K) → Mat K → Except Err (Mat K)) (plain : S)
    (l2 : Int → S) (F : Model K S) (n m r : Nat) (hF : F.Trained n m) (hm : F.hasInputs = false → m = 0) (hr : 0 < r)
    (f : FullSystem K) (hf : IsSystem f F) (V : List (List K)) (hV : V.length = n) (hVr : ∀ row ∈ V, row.length = r)
    (horth : gram r V V = eye r) (cols : List (List K)) (inputs : Option (Arg K))
    (hin : InputsFor m cols.length F.hasInputs inputs) :
    ∃ (N : Model K S) (Q D : List (List K)), F.galerkin solve plain l2 r r V V = .ok N ∧ N.Trained r m ∧
      N.ops.map Op.kind = F.ops.map Op.kind ∧ N.hasInputs = F.hasInputs ∧
      reprojectContinuous f n r V (.mat n cols) inputs = .ok (Q, D) ∧
      Q = cols.map (matVec (transpose r V)) ∧ D.length = cols.length ∧ (∀ d ∈ D, d.length = r) ∧
      ∀ j < cols.length, N.rhs (Q.getD j []) (inputAt inputs j) = .ok (D.getD j []) := by
  obtain ⟨N, hN, hNr, hNk, hNi, hNt, hcomm⟩ := C18_galerkin_commutes solve plain l2 F n m r hF hr V V hV hVr hV
    (fun h => absurd horth h)
  have hNt := hNt hm
  have htl : (transpose r V).length = r := by simp [transpose]
  have hstep : ∀ j, ∃ y, j < cols.length →
      N.rhs (matVec (transpose r V) (cols.getD j [])) (inputAt inputs j) = .ok y ∧ ∃ u z, GivenInput inputs j u ∧
      f (matVec V (matVec (transpose r V) (cols.getD j []))) u = .ok z ∧ z.length = n ∧
      y = matVec (transpose r V) z := by
    intro j
    by_cases hj : j < cols.length
    · obtain ⟨u, hu⟩ := hin.given hj
      obtain ⟨y, z, h1, h2, -, h4⟩ := hcomm (matVec (transpose r V) (cols.getD j [])) (inputAt inputs j)
        (by rw [length_matVec, htl]) (hin.value hj)
      refine ⟨y, fun _ => ⟨h1, u, z, hu, ?_, ?_, h4 horth⟩⟩
      · rw [hf.at hu]; exact h2
      · rw [rhs_length F h2, length_matVec, hV]
    · exact ⟨[], fun h => absurd h hj⟩
  choose y hy using hstep
  have hD : ∀ j < cols.length, ((range cols.length).map y).getD j [] = y j := by
    intro j hj
    rw [getD_eq_getElem (map _ _) _ (by simpa using hj), getElem_map, getElem_range]
  have hns : ∀ x, inputs ≠ some (.scalar x) := by
    rintro x rfl
    exact (hin.2 _ rfl).1 x rfl
  refine ⟨N, cols.map (matVec (transpose r V)), (range cols.length).map y, hN, hNt, hNk, hNi,
    (C77_continuous_iff _ _ _ _ _ _ _ _ _).2 ⟨rfl, hns, rfl, by simp, ?_⟩, rfl, by simp, ?_, ?_⟩
  · intro j hj
    obtain ⟨-, u, z, a, b, c, d⟩ := hy j hj
    exact ⟨u, z, a, b, c, by rw [hD j hj]; exact d⟩
  · intro d hd
    obtain ⟨j, hj, rfl⟩ := mem_map.1 hd
    obtain ⟨-, u, z, a, b, c, e⟩ := hy j (mem_range.1 hj)
    rw [e, length_matVec, htl]
  · intro j hj
    rw [getD_eq_getElem (map _ _) _ (by simpa using hj), getElem_map, ← getD_eq_getElem cols [] hj, hD j hj]
    exact (hy j hj).1

end

/-! ### Property theorems: recovery -/

section

variable [Field K] [LinearOrder K] [IsStrictOrderedRing K]

/-- A model all of whose operators are to be learned. -/
def LearnsAll {S : Type} (M : Model K S) (kinds : List OpKind) : Prop :=
  (∀ s ∈ M.slots, s.infer = true) ∧ M.ops.map Op.kind = kinds

theorem LearnsAll.completes {S S' : Type} {M : Model K S} {N : Model K S'} (h : LearnsAll M (N.ops.map Op.kind)) :
    Completes M N := by
  obtain ⟨h1, h2⟩ := h
  rw [Completes]
  rw [Model.ops, map_map] at h2
  generalize M.slots = l at h1 h2
  generalize N.ops = l' at h2
  induction l generalizing l' with
  | nil =>
    cases l' with
    | nil => exact .nil
    | cons _ _ => simp at h2
  | cons a l ih =>
    cases l' with
    | nil => simp at h2
    | cons b l' =>
      rw [map_cons, map_cons, cons.injEq] at h2
      refine .cons ⟨h2.1, fun h => ?_⟩ (ih (fun s hs => h1 s (mem_cons_of_mem _ hs)) l' h2.2)
      rw [h1 a mem_cons_self] at h
      cases h

theorem LearnsAll.toInfer_eq {S : Type} {M : Model K S} {kinds : List OpKind} (h : LearnsAll M kinds) :
    M.toInfer = kinds := by
  have : M.slots.filter Slot.infer = M.slots := filter_eq_self.2 h.1
  rw [Model.toInfer, this, ← h.2, Model.ops, map_map]
  rfl

/-- **C77** (recovery, discrete): training a discrete model with operators of the classes of the full-order model on the
re-projected trajectory recovers the intrusive reduced-order model exactly, provided the trajectory is informative. -/
theorem C77_discrete_recovers {S : Type} (solve : List (List K) → Mat K → Except Err (Mat K)) (plain : S) (l2 : Int → S)
    (F : Model K S) (n m r : Nat) (hF : F.Trained n m) (hm : F.hasInputs = false → m = 0) (hr : 0 < r)
    (f : FullSystem K) (hf : IsSystem f F) (V : List (List K)) (hV : V.length = n) (hVr : ∀ row ∈ V, row.length = r)
    (horth : gram r V V = eye r) (init : List K) (hinit : init.length = n) (niters : Nat) (hn : 1 ≤ niters)
    (inputs : Option (Arg K)) (hin : InputsFor m (niters - 1) F.hasInputs inputs)
    (lstsq : Mat K → Mat K → Except Err (Mat K)) (hls : ∀ A B X, lstsq A B = .ok X → IsLstsq A B X)
    (M : Model K (Plain K)) (hM : M.Inv) (hint : M.intrusive = false) (hlearn : LearnsAll M (F.ops.map Op.kind))
    (L : List (List K)) (hL : reprojectDiscrete f n r V init niters inputs = .ok L) (M' : Model K (Plain K))
    (hfit : M.fitDiscrete (plainSolver lstsq) r L none inputs = (M', .ok ()))
    (hinf : Informative (F.ops.map Op.kind) ((F.ops.map Op.kind).map fun o => o.dim r m).sum (niters - 1)
      (fun j => L.getD j []) (inputAt inputs)) :
    ∃ N, F.galerkin solve plain l2 r r V V = .ok N ∧ M'.ops = N.ops := by
  obtain ⟨N, L', hN, hNt, hNk, hNi, hLl, hL', hp⟩ := C77_discrete_intrusive solve plain l2 F n m r hF hm hr f hf V hV hVr
    horth init hinit niters hn inputs hin
  rw [hL] at hL'
  obtain rfl := Except.ok.inj hL'
  refine ⟨N, hN, ?_⟩
  rw [← hLl] at hp hinf
  refine C76_discrete_recovers lstsq hls M hM hint r m N hNt (LearnsAll.completes (by rw [hNk]; exact hlearn)) _ L inputs
    (fun a ha => (hin.2 a ha).2.1) (fun a ha => (hin.2 a ha).2.2.1) M' hp hfit ?_
  rw [hlearn.toInfer_eq]
  exact hinf

/-- **C77** (recovery, continuous): training a model with operators of the classes of the full-order model on the
re-projected states and time derivatives recovers the intrusive reduced-order model exactly, provided the states are
informative. -/
theorem C77_continuous_recovers {S : Type} (solve : List (List K) → Mat K → Except Err (Mat K)) (plain : S)
    (l2 : Int → S) (F : Model K S) (n m r : Nat) (hF : F.Trained n m) (hm : F.hasInputs = false → m = 0) (hr : 0 < r)
    (f : FullSystem K) (hf : IsSystem f F) (V : List (List K)) (hV : V.length = n) (hVr : ∀ row ∈ V, row.length = r)
    (horth : gram r V V = eye r) (cols : List (List K)) (inputs : Option (Arg K))
    (hin : InputsFor m cols.length F.hasInputs inputs)
    (lstsq : Mat K → Mat K → Except Err (Mat K)) (hls : ∀ A B X, lstsq A B = .ok X → IsLstsq A B X)
    (M : Model K (Plain K)) (hM : M.Inv) (hint : M.intrusive = false) (hlearn : LearnsAll M (F.ops.map Op.kind))
    (Q D : List (List K)) (hQ : reprojectContinuous f n r V (.mat n cols) inputs = .ok (Q, D)) (M' : Model K (Plain K))
    (hfit : M.fit (plainSolver lstsq) (.mat r Q) (.mat r D) inputs = (M', .ok ()))
    (hinf : Informative (F.ops.map Op.kind) ((F.ops.map Op.kind).map fun o => o.dim r m).sum cols.length
      (fun j => Q.getD j []) (inputAt inputs)) :
    ∃ N, F.galerkin solve plain l2 r r V V = .ok N ∧ M'.ops = N.ops := by
  obtain ⟨N, Q', D', hN, hNt, hNk, hNi, hQ', hQd, hDl, hDr, hrhs⟩ := C77_continuous_intrusive solve plain l2 F n m r hF hm
    hr f hf V hV hVr horth cols inputs hin
  rw [hQ] at hQ'
  have e := Except.ok.inj hQ'
  rw [Prod.mk.injEq] at e
  obtain ⟨rfl, rfl⟩ := e
  have hQl : Q.length = cols.length := by rw [hQd, length_map]
  refine ⟨N, hN, ?_⟩
  refine C76_fit_recovers lstsq hls M hM hint (.mat r Q) (.mat r D) inputs ?_ (fun d hd => hDr d hd)
    (fun a ha => (hin.2 a ha).2.1) hr M' hfit N m hNt.cal (fun a ha => (hin.2 a ha).2.2.1)
    (LearnsAll.completes (by rw [hNk]; exact hlearn)) ?_ ?_
  · intro c hc
    simp only [atleast2d] at hc ⊢
    rw [hQd] at hc
    obtain ⟨c', -, rfl⟩ := mem_map.1 hc
    rw [length_matVec]
    simp [transpose]
  · intro j hj
    simp only [atleast2d] at hj ⊢
    exact hrhs j (by omega)
  · rw [hlearn.toInfer_eq]
    simp only [atleast2d]
    rw [hQl]
    exact hinf

/-- **C77** (without any condition on the data): a discrete model with operators of the classes of the full-order model,
trained on the re-projected trajectory, reproduces this trajectory from the compressed initial state. -/
theorem C77_discrete_reproduces {S : Type} (solve : List (List K) → Mat K → Except Err (Mat K)) (plain : S)
    (l2 : Int → S) (F : Model K S) (n m r : Nat) (hF : F.Trained n m) (hm : F.hasInputs = false → m = 0) (hr : 0 < r)
    (f : FullSystem K) (hf : IsSystem f F) (V : List (List K)) (hV : V.length = n) (hVr : ∀ row ∈ V, row.length = r)
    (horth : gram r V V = eye r) (init : List K) (hinit : init.length = n) (niters : Nat) (hn : 2 ≤ niters)
    (inputs : Option (Arg K)) (hin : InputsFor m (niters - 1) F.hasInputs inputs)
    (lstsq : Mat K → Mat K → Except Err (Mat K)) (hls : ∀ A B X, lstsq A B = .ok X → IsLstsq A B X)
    (M : Model K (Plain K)) (hM : M.Inv) (hint : M.intrusive = false) (hlearn : LearnsAll M (F.ops.map Op.kind))
    (L : List (List K)) (hL : reprojectDiscrete f n r V init niters inputs = .ok L) (M' : Model K (Plain K))
    (hfit : M.fitDiscrete (plainSolver lstsq) r L none inputs = (M', .ok ())) :
    M'.predict (matVec (transpose r V) init) niters (inputs.elim .none .arr) = .ok L := by
  obtain ⟨N, L', hN, hNt, hNk, hNi, hLl, hL', hp⟩ := C77_discrete_intrusive solve plain l2 F n m r hF hm hr f hf V hV hVr
    horth init hinit niters (by omega) inputs hin
  rw [hL] at hL'
  obtain rfl := Except.ok.inj hL'
  obtain ⟨-, p2, p3, p4, p5, p6, p7⟩ := (C15_predict_iff N _ niters _ L).1 hp
  rw [Int.toNat_natCast] at p7
  have hLr : ∀ j, j < niters → (L.getD j []).length = r := by
    intro j
    induction j with
    | zero => intro _; rw [p6, length_matVec]; simp [transpose]
    | succ j ih => intro hj; rw [rhs_length N (p7 j hj)]; exact ih (by omega)
  have hLx : ∀ x ∈ L, x.length = r := by
    intro x hx
    obtain ⟨j, hj, rfl⟩ := mem_iff_getElem.1 hx
    rw [← getD_eq_getElem L [] hj]
    exact hLr j (by omega)
  have hto : M.toInfer = N.ops.map Op.kind := by rw [hlearn.toInfer_eq, hNk]
  have hok : ∀ o ∈ N.ops, ∀ j < niters - 1, InputOK o.kind m (inputAt inputs j) := by
    intro o ho j hj hoi
    refine hin.value hj ?_
    rw [← hNi, hNt.inv.inputs, any_eq_true]
    exact ⟨o, ho, hoi⟩
  have hrhs : ∀ j, j + 1 < niters → N.rhs (L.getD j []) (inputAt inputs j) = .ok (L.getD (j + 1) []) := by
    intro j hj
    have h1 := p7 j hj
    by_cases hi : N.hasInputs = true
    · cases inputs with
      | none => rw [hi] at h1; exact h1
      | some b => rw [hi] at h1; exact h1
    · rw [← h1]
      apply C21_rhs_ignores_inputs
      intro o ho
      have := hNt.inv.inputs
      rw [Bool.not_eq_true] at hi
      rw [hi] at this
      simpa using (any_eq_false.mp this.symm) o ho
  have h0 : (L.getD 0 []) = matVec (transpose r V) init := p6
  rw [← h0, ← hLl]
  refine C64_discrete_reproduces lstsq hls M hM hint r hr L hLx inputs (fun a ha => (hin.2 a ha).2.1) M' hfit
    ⟨r, (N.ops.map fun o => o.kind.dim r m).sum, stackRows N.ops r⟩ (stackRows_wf hNt.cal) rfl ?_ ?_
  · have := dataVector_length (r := r) (m := m) (u := inputAt inputs 0) (N.ops.map Op.kind) (hLr 0 (by omega)) (by
      intro o ho
      obtain ⟨o', ho', rfl⟩ := mem_map.1 ho
      exact hok o' ho' 0 (by omega))
    rw [hto]
    rw [dataVector] at this
    rw [this, map_map]
    rfl
  · intro j hj
    rw [hLl] at hj
    have hko : M.knownPart.ops = [] := by
      rw [Model.ops, Model.knownPart]
      simp only [map_eq_nil_iff]
      rw [filter_eq_nil_iff]
      intro s hs
      rw [hlearn.1 s hs]
      simp
    have h1 := hrhs j hj
    rw [rhs_eq N r m hNt.cal _ _ (hLr j (by omega)) fun o ho => hok o ho j (by omega),
      rhsVal_stack hNt.cal _ _ (hLr j (by omega)) fun o ho => hok o ho j (by omega)] at h1
    refine ⟨replicate r 0, ?_, ?_⟩
    · rw [rhs_eq M.knownPart r m (by rw [hko]; simp) _ _ (hLr j (by omega)) (by rw [hko]; simp), hko]
      rfl
    · rw [← Except.ok.inj h1, hto]
      have hlen : (matVec (stackRows N.ops r) (dataVector (N.ops.map Op.kind) (L.getD j []) ((inputAt inputs j).getD []))).length
          = r := by rw [length_matVec]; simp [stackRows]
      rw [← dataVector]
      generalize matVec (stackRows N.ops r) (dataVector (N.ops.map Op.kind) (L.getD j []) ((inputAt inputs j).getD [])) = x at hlen
      subst hlen
      have := vadd_zero_right x 0 x.length rfl
      rw [vsmul, map_replicate, mul_zero] at this
      exact this.symm

end

/-! ### Examples -/

/-- The right-hand side of a model as a system. -/
def Model.system {S : Type} [CommSemiring K] (F : Model K S) : FullSystem K
  | q, none => F.rhs q none
  | q, some (.scalar x) => F.rhs q (some [x])
  | q, some (.vec u) => F.rhs q (some u)
  | _, some (.mat _ _) => .error .value

theorem Model.isSystem {S : Type} [CommSemiring K] (F : Model K S) : IsSystem F.system F :=
  ⟨fun _ => rfl, fun _ _ => rfl, fun _ _ => rfl⟩

/-- A full-order model with two states. -/
def exFull : Model ℚ (Plain ℚ) := ⟨[⟨⟨.lin, some ⟨2, 2, [[2, 7], [5, 3]]⟩⟩, false⟩], false, some 2, some 0, true, none⟩

theorem exFull_trained : exFull.Trained 2 0 := by
  have hc : ∀ o ∈ exFull.ops, o.Cal 2 0 := by
    intro o ho
    simp only [exFull, Model.ops, map_cons, map_nil, mem_singleton] at ho
    subst ho
    exact ⟨_, rfl, ⟨rfl, by decide⟩, rfl, rfl⟩
  refine ⟨⟨?_, rfl, ?_, fun h => absurd h (by simp [exFull]), fun h => absurd h (by simp [exFull])⟩, by decide,
    by decide, rfl, rfl, hc⟩
  · intro s hs
    simp only [exFull, mem_singleton] at hs
    subst hs
    intro E hE
    cases hE
    exact ⟨by decide, 0, ⟨rfl, by decide⟩, rfl, rfl⟩
  · intro s hs _
    simp only [exFull, mem_singleton] at hs
    subst hs
    rfl

-- the re-projected trajectory differs from the compressed full-order trajectory
example : reprojectDiscrete exFull.system 2 1 [[1], [0]] [1, 1] 3 none = .ok [[1], [2], [4]] ∧
    (exFull.predict [1, 1] 3 .none).map (fun L => L.map (matVec (transpose 1 [[1], [0]]))) = .ok [[1], [9], [74]] := by
  decide +kernel

-- all hypotheses of `C77_discrete_recovers` hold
example : ∃ N, exFull.galerkin (fun _ _ => .error .linalg) ⟨none⟩ (fun _ => ⟨none⟩) 1 1 [[1], [0]] [[1], [0]] = .ok N ∧
    (exScalar.fitDiscrete (plainSolver exLs) 1 [[1], [2], [4]] none none).1.ops = N.ops := by
  have h1 : (exScalar.fitDiscrete (plainSolver exLs) 1 [[1], [2], [4]] none none).2 = .ok () := by decide +kernel
  refine C77_discrete_recovers _ _ _ exFull 2 0 1 exFull_trained (fun _ => rfl) (by decide) exFull.system exFull.isSystem
    [[1], [0]] rfl (by decide) (by decide +kernel) [1, 1] rfl 3 (by decide) none ⟨rfl, fun a h => by cases h⟩ exLs
    exLs_spec exScalar exScalar_inv rfl ⟨?_, rfl⟩ [[1], [2], [4]] (by decide +kernel) _ (Prod.ext rfl h1)
    exDouble_informative
  intro s hs
  simp only [exScalar, mem_singleton] at hs
  rw [hs]

-- with inputs: entries of a one-dimensional array, and too few of them
example : reprojectDiscrete (fun q u => match u with
    | some (.scalar x) => .ok (q.map (· + x))
    | _ => .error .type) 2 1 [[1], [0]] [1, 1] 3 (some (.vec [10, 100])) = .ok [[(1 : ℚ)], [11], [111]] := by
  decide +kernel
example : reprojectDiscrete (fun q _ => .ok q) 2 1 [[1], [0]] [1, 1] 3 (some (.vec [(10 : ℚ)])) = .error .index := by
  decide +kernel
example : reprojectContinuous (fun q _ => .ok (q.map (· * 2))) 2 1 [[1], [0]] (.mat 2 [[1, 5], [(3 : ℚ), 4]]) none =
    .ok ([[1], [3]], [[2], [6]]) := by
  decide +kernel

end Opinf
