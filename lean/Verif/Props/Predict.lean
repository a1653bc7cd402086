import Verif.Props.Fit
import Verif.Lemmas.FiniteDiff

/-!
# Discrete prediction and trajectory stacking
-/

namespace Opinf

open List

variable {K : Type}

/-! ### The loop -/

/-- `L` is the sequence of `n` states generated by `f` from `q0`. -/
def IsOrbit (f : List K → Nat → Except Err (List K)) (q0 : List K) (n : Nat)
    (L : List (List K)) : Prop :=
  L.length = n ∧ L.getD 0 [] = q0 ∧ ∀ j, j + 1 < n → f (L.getD j []) j = .ok (L.getD (j + 1) [])

theorem getD_append_left' {α : Type*} (l l' : List α) (d : α) {i : Nat} (h : i < l.length) :
    (l ++ l').getD i d = l.getD i d := by
  rw [getD_eq_getElem?_getD, getD_eq_getElem?_getD, getElem?_append_left h]

theorem getD_concat_length {α : Type*} (l : List α) (a d : α) :
    (l ++ [a]).getD l.length d = a := by
  rw [getD_eq_getElem?_getD, getElem?_append_right (le_refl _)]
  simp

theorem IsOrbit.unique {f : List K → Nat → Except Err (List K)} {q0 : List K} {n : Nat}
    {L L' : List (List K)} (h : IsOrbit f q0 n L) (h' : IsOrbit f q0 n L') : L = L' := by
  have key : ∀ j, j < n → L.getD j [] = L'.getD j [] := by
    intro j
    induction j with
    | zero => intro _; rw [h.2.1, h'.2.1]
    | succ j ih =>
      intro hj
      have h1 := h.2.2 j hj
      have h2 := h'.2.2 j hj
      rw [ih (by omega), h2] at h1
      exact (Except.ok.inj h1).symm
  apply ext_getElem (by rw [h.1, h'.1])
  intro i h1 h2
  have := key i (by rw [← h.1]; exact h1)
  rwa [getD_eq_getElem _ _ h1, getD_eq_getElem _ _ h2] at this

theorem iterate_succ (f : List K → Nat → Except Err (List K)) (q0 : List K) (n : Nat) :
    iterate f q0 (n + 2) = (do
      let L ← iterate f q0 (n + 1)
      return L ++ [← f (L.getD n []) n]) := by
  have : n + 2 - 1 = n + 1 := by omega
  have h1 : n + 1 - 1 = n := by omega
  rw [iterate, iterate, this, h1, range_succ, foldlM_append]
  simp only [foldlM_cons, foldlM_nil, bind_pure]

theorem iterate_iff (f : List K → Nat → Except Err (List K)) (q0 : List K) (n : Nat)
    (L : List (List K)) : iterate f q0 (n + 1) = .ok L ↔ IsOrbit f q0 (n + 1) L := by
  induction n generalizing L with
  | zero =>
    simp only [iterate, Nat.zero_add, Nat.sub_self, range_zero, foldlM_nil]
    constructor
    · intro h
      cases h
      exact ⟨rfl, rfl, fun j hj => by omega⟩
    · rintro ⟨h1, h2, -⟩
      obtain ⟨a, rfl⟩ := length_eq_one_iff.mp h1
      simp only [getD_cons_zero] at h2
      rw [h2]; rfl
  | succ n ih =>
    rw [iterate_succ]
    constructor
    · intro h
      cases h1 : iterate f q0 (n + 1) with
      | error e => rw [h1] at h; cases h
      | ok L1 =>
        rw [h1] at h
        cases h2 : f (L1.getD n []) n with
        | error e => simp only [bind, Except.bind, h2] at h; cases h
        | ok y =>
          simp only [bind, Except.bind, h2] at h
          cases h
          obtain ⟨o1, o2, o3⟩ := (ih L1).mp h1
          refine ⟨by simp [o1], ?_, ?_⟩
          · rw [getD_append_left' _ _ _ (by omega), o2]
          · intro j hj
            rw [getD_append_left' _ _ _ (by omega)]
            rcases Nat.lt_or_ge (j + 1) (n + 1) with hlt | hge
            · rw [getD_append_left' _ _ _ (by omega)]
              exact o3 j hlt
            · have : j = n := by omega
              subst this
              rw [h2]
              have := getD_concat_length L1 y []
              rw [o1] at this
              rw [this]
    · intro h
      have hL : L = L.take (n + 1) ++ [L.getD (n + 1) []] := by
        apply ext_getElem
        · simp [h.1]
        · intro i h1 h2
          rcases Nat.lt_or_ge i (n + 1) with hi | hi
          · rw [getElem_append_left (by simp [h.1]; omega)]
            simp
          · have hi' : i = n + 1 := by have := h.1; omega
            subst hi'
            rw [getElem_append_right (by simp [h.1])]
            rw [← getD_eq_getElem L [] h1]
            simp
      have horb : IsOrbit f q0 (n + 1) (L.take (n + 1)) := by
        have ht : ∀ j, j < n + 1 → (L.take (n + 1)).getD j [] = L.getD j [] := by
          intro j hj
          rw [getD_eq_getElem?_getD, getElem?_take_of_lt hj, ← getD_eq_getElem?_getD]
        refine ⟨by simp [h.1], by rw [ht 0 (by omega)]; exact h.2.1, ?_⟩
        intro j hj
        rw [ht j (by omega), ht (j + 1) (by omega)]
        exact h.2.2 j (by omega)
      rw [(ih _).mpr horb]
      have hn := h.2.2 n (by omega)
      have ht : (L.take (n + 1)).getD n [] = L.getD n [] := by
        rw [getD_eq_getElem?_getD, getElem?_take_of_lt (by omega), ← getD_eq_getElem?_getD]
      simp only [bind, Except.bind, ht, hn]
      show Except.ok _ = _
      rw [← hL]

theorem addInto_length [Add K] {out : List K} {y : Arg K} {z : List K} (h : addInto out y = .ok z) :
    z.length = out.length := by
  unfold addInto at h
  split at h
  · cases h; simp
  · cases h; simp
  · split at h
    · cases h
      rename_i he
      simp [vadd, he]
    · cases h
  · cases h

theorem rhs_length {S : Type} [CommSemiring K] (M : Model K S) {q : List K} {u : Option (List K)}
    {y : List K} (h : M.rhs q u = .ok y) : y.length = q.length := by
  rw [Model.rhs] at h
  have hl : (replicate q.length (0 : K)).length = q.length := by simp
  generalize replicate q.length (0 : K) = acc at h hl
  generalize M.ops = ops at h
  induction ops generalizing acc with
  | nil => cases h; exact hl
  | cons o ops ih =>
    rw [foldlM_cons] at h
    cases ha : o.apply (.vec q) (u.map .vec) with
    | error e => rw [ha] at h; cases h
    | ok v =>
      cases hz : addInto acc v with
      | error e =>
        have : (do addInto acc (← o.apply (.vec q) (u.map .vec)) : Except Err (List K)) = .error e := by
          rw [ha]; exact hz
        rw [this] at h; cases h
      | ok z =>
        have : (do addInto acc (← o.apply (.vec q) (u.map .vec)) : Except Err (List K)) = .ok z := by
          rw [ha]; exact hz
        rw [this] at h
        exact ih z (by rw [addInto_length hz, hl]) h

/-! ### C15 -/

/-- The input used at step `j`. -/
def PredInput.at (inputs : PredInput K) (hasInputs : Bool) (j : Nat) : Option (List K) :=
  match hasInputs, inputs with
  | true, .arr a => Option.some ((atleast2d a).2.getD j [])
  | _, _ => Option.none

/-- The inputs suffice for `n` iterations of a model with input dimension `m`. -/
def PredInput.Enough (inputs : PredInput K) (m : Option Nat) (n : Nat) : Prop :=
  match inputs with
  | .arr a => some (atleast2d a).1 = m ∧ n ≤ (atleast2d a).2.length + 1
  | _ => False

/-- **C15.** `DiscreteModel.predict(state0, niters, inputs)` succeeds with result `L` exactly when the
model is trained, `state0` has the state dimension, `niters ≥ 1`, the inputs suffice, and `L` has
`niters` columns with `L[:, 0] = state0` and `L[:, j+1] = rhs(L[:, j], inputs[:, j])`. -/
theorem C15_predict_iff {S : Type} [CommSemiring K] (M : Model K S) (q0 : List K) (n : Int)
    (inputs : PredInput K) (L : List (List K)) :
    M.predict q0 n inputs = .ok L ↔
      M.checkTrained = .ok () ∧ some q0.length = M.r ∧ 1 ≤ n ∧
      (M.hasInputs = true → inputs.Enough M.m n.toNat) ∧
      L.length = n.toNat ∧ L.getD 0 [] = q0 ∧
      ∀ j, j + 1 < n.toNat →
        M.rhs (L.getD j []) (inputs.at M.hasInputs j) = .ok (L.getD (j + 1) []) := by
  have hn : ∀ k, 1 ≤ n → n.toNat = k → ∃ k', k = k' + 1 := by
    intro k h1 h2; exact ⟨k - 1, by omega⟩
  constructor
  · intro h
    unfold Model.predict at h
    cases h1 : M.checkTrained with
    | error e => rw [h1] at h; cases h
    | ok _ =>
      rw [h1] at h
      simp only [bind, Except.bind] at h
      by_cases h2 : some q0.length = M.r
      · rw [if_neg (by simp [h2])] at h
        by_cases h3 : M.hasInputs = true ∧ inputs.isNone = true
        · rw [if_pos h3] at h; cases h
        · rw [if_neg h3] at h
          by_cases h4 : n < 1
          · rw [if_pos h4] at h; cases h
          · rw [if_neg h4] at h
            obtain ⟨k, hk⟩ := hn n.toNat (by omega) rfl
            cases hi : M.hasInputs
            · rw [hi, if_neg (by simp)] at h
              rw [hk, iterate_iff] at h
              refine ⟨rfl, h2, by omega, by simp, ?_⟩
              rw [hk]
              exact ⟨h.1, h.2.1, fun j hj => h.2.2 j hj⟩
            · rw [hi, if_pos rfl] at h
              cases inputs with
              | none => cases h
              | callable => cases h
              | arr a =>
                simp only at h
                by_cases h5 : some (atleast2d a).1 ≠ M.m ∨ (atleast2d a).2.length < n.toNat - 1
                · rw [if_pos h5] at h; cases h
                · rw [if_neg h5] at h
                  push Not at h5
                  rw [hk, iterate_iff] at h
                  refine ⟨rfl, h2, by omega, fun _ => ⟨h5.1, by omega⟩, ?_⟩
                  rw [hk]
                  exact ⟨h.1, h.2.1, fun j hj => h.2.2 j hj⟩
      · rw [if_pos h2] at h; cases h
  · rintro ⟨h1, h2, h3, h4, h5⟩
    obtain ⟨k, hk⟩ := hn n.toNat h3 rfl
    unfold Model.predict
    rw [h1]
    simp only [bind, Except.bind]
    rw [if_neg (by simp [h2])]
    cases hi : M.hasInputs
    · rw [if_neg (by simp), if_neg (by omega), if_neg (by simp), hk, iterate_iff]
      rw [hk, hi] at h5
      exact ⟨h5.1, h5.2.1, fun j hj => h5.2.2 j hj⟩
    · have h4' := h4 hi
      cases inputs with
      | none => exact absurd h4' (by simp [PredInput.Enough])
      | callable => exact absurd h4' (by simp [PredInput.Enough])
      | arr a =>
        simp only [PredInput.Enough] at h4'
        rw [if_neg (by simp [PredInput.isNone]), if_neg (by omega), if_pos rfl]
        simp only
        rw [if_neg (by push Not; exact ⟨h4'.1, by omega⟩), hk, iterate_iff]
        rw [hk, hi] at h5
        exact ⟨h5.1, h5.2.1, fun j hj => h5.2.2 j hj⟩

/-- **C15.** A longer prediction extends a shorter one with the same arguments. -/
theorem C15_predict_prefix {S : Type} [CommSemiring K] (M : Model K S) (q0 : List K) (n n' : Int)
    (inputs : PredInput K) (L : List (List K)) (h : M.predict q0 n inputs = .ok L) (h1 : 1 ≤ n')
    (h2 : n' ≤ n) : M.predict q0 n' inputs = .ok (L.take n'.toNat) := by
  rw [C15_predict_iff] at h ⊢
  obtain ⟨a1, a2, a3, a4, a5, a6, a7⟩ := h
  have ht : ∀ j, j < n'.toNat → (L.take n'.toNat).getD j [] = L.getD j [] := by
    intro j hj
    rw [getD_eq_getElem?_getD, getElem?_take_of_lt hj, ← getD_eq_getElem?_getD]
  refine ⟨a1, a2, h1, ?_, by rw [length_take, a5]; omega, by rw [ht 0 (by omega)]; exact a6, ?_⟩
  · intro hi
    have := a4 hi
    cases inputs with
    | none => exact this
    | callable => exact this
    | arr a => exact ⟨this.1, by have := this.2; omega⟩
  · intro j hj
    rw [ht j (by omega), ht (j + 1) hj]
    exact a7 j (by omega)

/-- The inputs from step `k` on. -/
def PredInput.shift (k : Nat) : PredInput K → PredInput K
  | .arr a => .arr (.mat (atleast2d a).1 ((atleast2d a).2.drop k))
  | i => i

/-- **C15.** A prediction may be restarted from any of its columns with the remaining inputs. -/
theorem C15_predict_restart {S : Type} [CommSemiring K] (M : Model K S) (q0 : List K) (n : Int)
    (inputs : PredInput K) (L : List (List K)) (h : M.predict q0 n inputs = .ok L) (k : Nat)
    (hk : k < n.toNat) :
    M.predict (L.getD k []) (n - k) (inputs.shift k) = .ok (L.drop k) := by
  rw [C15_predict_iff] at h ⊢
  obtain ⟨a1, a2, a3, a4, a5, a6, a7⟩ := h
  have hlen : ∀ j, j < n.toNat → (L.getD j []).length = q0.length := by
    intro j
    induction j with
    | zero => intro _; rw [a6]
    | succ j ih =>
      intro hj
      rw [← ih (by omega)]
      exact rhs_length M (a7 j hj)
  have hd : ∀ j, (L.drop k).getD j [] = L.getD (k + j) [] := by
    intro j
    rw [getD_eq_getElem?_getD, getElem?_drop, ← getD_eq_getElem?_getD]
  refine ⟨a1, by rw [hlen k hk]; exact a2, by omega, ?_, by rw [length_drop, a5]; omega,
    by rw [hd]; rfl, ?_⟩
  · intro hi
    have := a4 hi
    cases inputs with
    | none => exact this
    | callable => exact this
    | arr a =>
      refine ⟨this.1, ?_⟩
      have h2 := this.2
      show (n - k).toNat ≤ ((atleast2d a).2.drop k).length + 1
      rw [length_drop]
      omega
  · intro j hj
    rw [hd, hd]
    have h7 := a7 (k + j) (by omega)
    have hat : (inputs.shift k).at M.hasInputs j = inputs.at M.hasInputs (k + j) := by
      cases M.hasInputs with
      | false => cases inputs <;> rfl
      | true =>
        cases inputs with
        | none => rfl
        | callable => rfl
        | arr a =>
          show some (((atleast2d a).2.drop k).getD j []) = some ((atleast2d a).2.getD (k + j) [])
          rw [getD_eq_getElem?_getD, getElem?_drop, ← getD_eq_getElem?_getD]
    rw [hat]
    exact h7

/-- A concrete prediction. -/
example : (⟨[⟨⟨.lin, some ⟨1, 1, [[2]]⟩⟩, false⟩, ⟨⟨.inp, some ⟨1, 1, [[1]]⟩⟩, false⟩], true, some 1,
    some 1, true, none⟩ : Model ℚ Unit).predict [3] 3 (.arr (.vec [1, 5])) = .ok [[3], [7], [19]] := by
  decide +kernel

/-! ### C16 -/

/-- The consecutive pairs of one trajectory. -/
def pairs {α : Type*} (Q : List α) : List (α × α) := Q.zip Q.tail

theorem pySlice_init {α : Type*} (Q : List α) : pySlice 0 (some (-1)) Q = Q.dropLast := by
  have := pySlice_fwd 1 (by omega) Q
  rw [dropLast_eq_take]
  exact this

theorem pySlice_tail {α : Type*} (Q : List α) : pySlice 1 none Q = Q.tail := by
  have := pySlice_bwd 1 Q
  rw [← drop_one]
  exact this

theorem pySlice_count {α : Type*} (n : Nat) (U : List α) :
    pySlice 0 (some (n : Int)) U = U.take n := by
  have h1 : ¬ ((n : Int) < 0) := by omega
  simp only [pySlice, h1, if_false, Int.toNat_natCast, lt_irrefl, Int.toNat_zero, Nat.zero_min, drop_zero]
  rcases Nat.le_total n U.length with h | h
  · rw [min_eq_left h]
  · rw [min_eq_right h, take_length, take_of_length_le h]

theorem zip_flatMap {α β γ : Type*} (l : List γ) (f : γ → List α) (g : γ → List β)
    (h : ∀ c ∈ l, (f c).length = (g c).length) :
    (l.flatMap f).zip (l.flatMap g) = l.flatMap fun c => (f c).zip (g c) := by
  induction l with
  | nil => rfl
  | cons c l ih =>
    rw [flatMap_cons, flatMap_cons, flatMap_cons, zip_append (h c mem_cons_self),
      ih (fun c hc => h c (mem_cons_of_mem _ hc))]

theorem zip_dropLast_tail {α : Type*} (Q : List α) : Q.dropLast.zip Q.tail = pairs Q := by
  induction Q with
  | nil => rfl
  | cons a Q ih =>
    cases Q with
    | nil => rfl
    | cons b Q =>
      simp only [pairs, dropLast_cons_cons, tail_cons, zip_cons_cons] at ih ⊢
      rw [ih]

theorem zip_take_right {α β : Type*} (a : List α) (b : List β) (n : Nat) (h : a.length ≤ n) :
    a.zip (b.take n) = a.zip b := by
  induction a generalizing b n with
  | nil => rfl
  | cons x a ih =>
    cases b with
    | nil => simp
    | cons y b =>
      cases n with
      | zero => simp at h
      | succ n =>
        simp only [take_succ_cons, zip_cons_cons]
        rw [ih b n (by simpa using h)]

theorem length_pairs {α : Type*} (Q : List α) : (pairs Q).length = Q.length - 1 := by
  simp [pairs]

/-- **C16.** `stack_trajectories(statelist)`: pairing the two outputs gives exactly the consecutive
pairs of every trajectory, in order, none across a boundary and none lost. -/
theorem C16_stack_pairs {α β : Type*} (statelist : List (List α)) (us : Option (List (List β))) :
    (stackTrajectories statelist us).1.zip (stackTrajectories statelist us).2.1
      = statelist.flatMap pairs ∧
    (stackTrajectories statelist us).1.length = (statelist.flatMap pairs).length ∧
    (stackTrajectories statelist us).2.1.length = (statelist.flatMap pairs).length := by
  have h1 : (stackTrajectories statelist us).1 = statelist.flatMap dropLast := by
    simp only [stackTrajectories, pySlice_init, flatMap_def]
  have h2 : (stackTrajectories statelist us).2.1 = statelist.flatMap tail := by
    simp only [stackTrajectories, pySlice_tail, flatMap_def]
  rw [h1, h2]
  refine ⟨?_, ?_, ?_⟩
  · rw [zip_flatMap _ _ _ (by intro c _; simp)]
    simp only [zip_dropLast_tail]
  · simp only [length_flatMap, length_dropLast, length_pairs]
  · simp only [length_flatMap, length_tail, length_pairs]

/-- **C16.** With inputs (at least one column per consecutive pair for every trajectory, and none for
an empty trajectory), the stacked input of every pair is the input of the same trajectory at the same
step. -/
theorem C16_stack_inputs {α β : Type*} (trajs : List (List α × List β))
    (h : ∀ t ∈ trajs, t.1.length ≤ t.2.length + 1 ∧ (t.1 = [] → t.2 = [])) :
    ∃ U, (stackTrajectories (trajs.map Prod.fst) (some (trajs.map Prod.snd))).2.2 = some U ∧
      U.length = (stackTrajectories (trajs.map Prod.fst) (some (trajs.map Prod.snd))).1.length ∧
      ((stackTrajectories (trajs.map Prod.fst) (some (trajs.map Prod.snd))).1.zip
        (stackTrajectories (trajs.map Prod.fst) (some (trajs.map Prod.snd))).2.1).zip U
        = trajs.flatMap fun t => (pairs t.1).zip t.2 := by
  have hU : (zipWith (fun S U => pySlice 0 (some ((S.length : Int) - 1)) U) (trajs.map Prod.fst)
      (trajs.map Prod.snd)).flatten = trajs.flatMap fun t => t.2.take (t.1.length - 1) := by
    rw [flatMap_def, zipWith_map, zipWith_self]
    congr 1
    apply map_congr_left
    intro t ht
    obtain ⟨h1, h2⟩ := h t ht
    cases hQ : t.1 with
    | nil => rw [h2 hQ]; rfl
    | cons a Q =>
      have : ((a :: Q).length : Int) - 1 = (Q.length : Nat) := by simp
      rw [this, pySlice_count]
      simp
  obtain ⟨p1, p2, -⟩ := C16_stack_pairs (trajs.map Prod.fst) (some (trajs.map Prod.snd))
  refine ⟨_, congrArg some hU, ?_, ?_⟩
  · rw [p2, length_flatMap, length_flatMap, map_map]
    congr 1
    apply map_congr_left
    intro t ht
    obtain ⟨h1, -⟩ := h t ht
    simp only [length_take, Function.comp_apply, length_pairs]
    omega
  · rw [p1, flatMap_map, zip_flatMap]
    · apply flatMap_congr
      intro t ht
      exact zip_take_right _ _ _ (by rw [length_pairs])
    · intro t ht
      obtain ⟨h1, -⟩ := h t ht
      simp only [length_take, length_pairs]
      omega

/-- Two trajectories of different lengths and a single-snapshot one. -/
example : stackTrajectories [[1, 2, 3], [7], [4, 5]] (some [[10, 20], [], [40, 50]])
    = (([1, 2, 4] : List Nat), [2, 3, 5], some ([10, 20, 40] : List Nat)) := by decide +kernel

/-- Without the condition on empty trajectories the alignment fails: for an empty trajectory that
comes with two input columns, one of them is kept and shifts all later inputs. -/
theorem C16_empty_trajectory_misaligned :
    stackTrajectories [[], [4, 5]] (some [[10, 20], [40]])
      = (([4] : List Nat), [5], some ([10, 40] : List Nat)) := by decide +kernel

end Opinf
