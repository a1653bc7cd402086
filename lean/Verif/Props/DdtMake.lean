import Verif.Model.DdtMake
import Verif.Props.FiniteDiff
import Verif.Lemmas.Grad

/-!
# C31: which time domains and schemes are accepted, and what the estimator returns on its time domain
-/

namespace Opinf

open List

variable {K : Type}

/-- A list of times with a constant step. -/
def Uniform [Sub K] (t : List K) (dt : K) : Prop :=
  2 ≤ t.length ∧ ∀ (i : Nat) a b, t[i]? = some a → t[i + 1]? = some b → b - a = dt

theorem uniformDomain_iff [Sub K] [DecidableEq K] (t : List K) (dt : K) :
    uniformDomain t = .ok dt ↔ Uniform t dt := by
  have hget : ∀ (i : Nat) a b, t[i]? = some a → t[i + 1]? = some b →
      (zipWith (fun a b => b - a) t t.tail)[i]? = some (b - a) := by
    intro i a b ha hb
    rw [getElem?_zipWith, getElem?_tail, ha, hb]
  have hlen : (zipWith (fun a b => b - a) t t.tail).length = t.length - 1 := by
    simp
  rw [uniformDomain, Uniform]
  cases hz : zipWith (fun a b => b - a) t t.tail with
  | nil =>
    rw [hz] at hlen
    simp only [reduceCtorEq, false_iff, not_and]
    intro h
    simp at hlen
    omega
  | cons d ds =>
    rw [hz] at hget hlen
    simp only [length_cons] at hlen
    have key : (∀ (i : Nat) a b, t[i]? = some a → t[i + 1]? = some b → b - a = dt) ↔ ∀ x ∈ d :: ds, x = dt := by
      constructor
      · intro h x hx
        obtain ⟨i, hi⟩ := mem_iff_getElem?.1 hx
        have hlt : i < (d :: ds).length := (List.getElem?_eq_some_iff.1 hi).1
        simp only [length_cons] at hlt
        have e := hget i _ _ (getElem?_eq_getElem (by omega)) (getElem?_eq_getElem (by omega))
        rw [hi] at e
        cases e
        exact h i _ _ (getElem?_eq_getElem (by omega)) (getElem?_eq_getElem (by omega))
      · intro h i a b ha hb
        exact h _ (mem_of_getElem? (hget i a b ha hb))
    rw [key]
    simp only [mem_cons, forall_eq_or_imp]
    split
    · rename_i hall
      rw [all_eq_true] at hall
      constructor
      · intro h
        cases h
        exact ⟨by omega, rfl, fun x hx => by simpa using hall x hx⟩
      · rintro ⟨-, rfl, -⟩
        rfl
    · rename_i hall
      simp only [reduceCtorEq, false_iff]
      rintro ⟨-, rfl, h⟩
      exact hall (all_eq_true.2 fun x hx => by simpa using h x hx)

theorem uniformDomain_error [Sub K] [DecidableEq K] (t : List K) (h : ∀ dt, ¬ Uniform t dt) :
    uniformDomain t = .error (if t.length < 2 then .index else .value) := by
  have hlen : (zipWith (fun a b => b - a) t t.tail).length = t.length - 1 := by simp
  cases hx : uniformDomain t with
  | ok dt => exact absurd ((uniformDomain_iff t dt).1 hx) (h dt)
  | error e =>
    rw [uniformDomain] at hx
    cases hz : zipWith (fun a b => b - a) t t.tail with
    | nil =>
      rw [hz] at hx hlen
      cases hx
      simp at hlen
      rw [if_pos (by omega)]
    | cons d ds =>
      rw [hz] at hx hlen
      simp at hlen
      simp only at hx
      split at hx
      · cases hx
      · cases hx
        rw [if_neg (by omega)]

/-- **C31, names.** A scheme is found exactly by its name; there are 18 of them. -/
theorem C31_scheme_names (name : List Char) :
    (∀ s, schemeOfName name = .ok s ↔ s.name = name) ∧
    (schemeOfName name = .error .value ↔ ∀ s : Scheme, s.name ≠ name) := by
  have hall : ∀ s : Scheme, s ∈ allSchemes := by intro s; cases s <;> decide
  have hinj : ∀ s s' : Scheme, s.name = s'.name → s = s' := by
    intro s s' h
    cases s <;> cases s' <;> first | rfl | (exact absurd h (by decide))
  rw [schemeOfName]
  cases hf : allSchemes.find? fun x => decide (x.name = name) with
  | none =>
    have h0 : ∀ s : Scheme, s.name ≠ name := by
      intro s
      have := find?_eq_none.1 hf s (hall s)
      simpa using this
    exact ⟨fun s => ⟨(fun h => by cases h), fun h => absurd h (h0 s)⟩, fun _ => h0, fun _ => rfl⟩
  | some x =>
    have hx : x.name = name := by simpa using find?_some hf
    refine ⟨fun s => ⟨fun h => ?_, fun h => ?_⟩, (fun h => by cases h), fun h => absurd hx (h x)⟩
    · cases h
      exact hx
    · rw [hinj s x (h.trans hx.symm)]

/-- **C31, constructor.** `UniformFiniteDifferencer(time_domain, scheme)` succeeds exactly for one-dimensional arrays
of at least two equally spaced times and the name of a scheme. Anything else raises `ValueError`, except that an array
with fewer than two entries raises `IndexError`. -/
theorem C31_constructor [Sub K] [DecidableEq K] (a : TimesArg K) (name : List Char) :
    (∀ e, Ufd.make a name = .ok e ↔ a = .arr e.t ∧ (∃ dt, Uniform e.t dt) ∧ e.scheme.name = name) ∧
    ∀ err, Ufd.make a name = .error err → err = .value ∨ (err = .index ∧ ∃ t, a = .arr t ∧ t.length < 2) := by
  obtain ⟨n1, n2⟩ := C31_scheme_names name
  cases a with
  | other =>
    refine ⟨fun e => ⟨(fun h => by cases h), (fun h => by cases h.1)⟩, fun err h => ?_⟩
    cases h
    exact Or.inl rfl
  | arr t =>
    rw [Ufd.make]
    by_cases hu : ∃ dt, Uniform t dt
    · obtain ⟨dt, hu⟩ := hu
      rw [(uniformDomain_iff t dt).2 hu]
      simp only
      cases hn : schemeOfName name with
      | error e' =>
        have : ∀ s : Scheme, s.name ≠ name := fun s hs => by
          rw [(n1 s).2 hs] at hn
          cases hn
        have he : e' = .value := by
          have := n2.2 this
          rw [hn] at this
          cases this
          rfl
        refine ⟨fun e => ⟨(fun h => by cases h), fun h => absurd h.2.2 (this e.scheme)⟩, fun err h => ?_⟩
        cases h
        exact Or.inl he
      | ok s =>
        refine ⟨fun e => ⟨fun h => ?_, fun h => ?_⟩, fun err h => by cases h⟩
        · cases h
          exact ⟨rfl, ⟨dt, hu⟩, (n1 s).1 hn⟩
        · obtain ⟨t', s'⟩ := e
          obtain ⟨h1, -, h3⟩ := h
          cases h1
          have := (n1 s').2 h3
          rw [hn] at this
          cases this
          rfl
    · have h0 : ∀ dt, ¬ Uniform t dt := fun dt h => hu ⟨dt, h⟩
      rw [uniformDomain_error t h0]
      refine ⟨fun e => ⟨(fun h => by cases h), fun h => ?_⟩, fun err h => ?_⟩
      · cases h.1
        exact absurd h.2.1 hu
      · by_cases hl : t.length < 2
        · rw [if_pos hl] at h
          cases h
          exact Or.inr ⟨rfl, t, rfl, hl⟩
        · rw [if_neg hl] at h
          cases h
          exact Or.inl rfl

theorem Uniform.eq_samples [Field K] {t : List K} {dt : K} (h : Uniform t dt) :
    ∃ t0, t = samples id t0 dt 0 t.length := by
  obtain ⟨hl, h⟩ := h
  refine ⟨t.getD 0 0, ext_getElem (by simp [samples]) fun j h1 _ => ?_⟩
  simp only [samples, getElem_map, getElem_range, id, Nat.zero_add]
  induction j with
  | zero => simp [getD_eq_getElem?_getD, getElem?_eq_getElem h1]
  | succ j ih =>
    have e := h j _ _ (getElem?_eq_getElem (by omega)) (getElem?_eq_getElem h1)
    have := ih (by omega) (by simp [samples]; omega)
    rw [← sub_add_cancel t[j + 1] t[j], e, this]
    push_cast
    ring

/-- **C31, estimators.** An estimator made for the times `t` returns, for every polynomial up to the order of its
scheme sampled at these times, the values and the derivative at the times kept by `mask(t)`. -/
theorem C31_made_exact [Field K] [CharZero K] [DecidableEq K] (t : List K) (name : List Char) (e : Ufd K)
    (h : Ufd.make (.arr t) name = .ok e) (ps : List (Polynomial K)) (hps : ∀ p ∈ ps, p.natDegree ≤ e.scheme.docOrder)
    (hdist : ∀ a b, t[0]? = some a → t[1]? = some b → a ≠ b) (hk : e.scheme.minSnapshots ≤ t.length) :
    ∃ t', e.scheme.mask t = .ok t' ∧ t'.length = e.scheme.width t.length ∧
      e.estimate ⟨ps.length, t.length, ps.map fun p => t.map p.eval⟩ none
        = .ok (⟨ps.length, t'.length, ps.map fun p => t'.map p.eval⟩,
            ⟨ps.length, t'.length, ps.map fun p => t'.map p.derivative.eval⟩, none) := by
  obtain ⟨ha, ⟨dt, hu⟩, -⟩ := ((C31_constructor (.arr t) name).1 e).1 h
  cases ha
  obtain ⟨t0, ht⟩ := hu.eq_samples
  have h2 := hu.1
  have hdt : e.dt = .ok dt := by
    have h01 := hu.2 0 _ _ (getElem?_eq_getElem (by omega)) (getElem?_eq_getElem (by omega : 1 < e.t.length))
    obtain ⟨l, s⟩ := e
    simp only at h01 h2 ⊢
    match l, h2 with
    | a :: b :: l, _ =>
      simp only [getElem_cons_zero, getElem_cons_succ] at h01
      simp only [Ufd.dt, h01]
  have hdt0 : dt ≠ 0 := by
    intro h0
    have h01 := hu.2 0 _ _ (getElem?_eq_getElem (by omega)) (getElem?_eq_getElem (by omega : 1 < e.t.length))
    rw [h0, sub_eq_zero] at h01
    exact hdist _ _ (getElem?_eq_getElem (by omega)) (getElem?_eq_getElem (by omega)) h01.symm
  have hm := (C32_estimate_aligned e.scheme dt (⟨1, e.t.length, [e.t]⟩ : Mat K) ⟨rfl, by simp⟩ hk none (by simp))
  obtain ⟨-, -, -, -, -, -, -, -, -, -, -, -, hmask⟩ := hm
  have hw : e.scheme.first + e.scheme.width e.t.length ≤ e.t.length := by
    generalize e.t.length = k at hk
    revert hk
    cases e.scheme <;>
      simp only [Scheme.minSnapshots, Scheme.first, Scheme.width, Scheme.mixed, Scheme.docOrder] <;> intro hk <;>
      simp at hk ⊢ <;> omega
  have hlen : ((e.t.drop e.scheme.first).take (e.scheme.width e.t.length)).length = e.scheme.width e.t.length := by
    rw [length_take, length_drop]
    omega
  refine ⟨_, hmask e.t rfl, hlen, ?_⟩
  have hsub : ∀ f : K → K, ((e.t.drop e.scheme.first).take (e.scheme.width e.t.length)).map f
      = samples f t0 dt e.scheme.first (e.scheme.width e.t.length) := by
    intro f
    refine ext_getElem (by rw [length_map, hlen]; simp [samples]) fun j h1 h2 => ?_
    rw [length_map, hlen] at h1
    simp only [getElem_map, getElem_take, getElem_drop, samples, getElem_range]
    congr 1
    have : e.t[e.scheme.first + j]'(by omega) = (samples id t0 dt 0 e.t.length)[e.scheme.first + j]'(by
        simp [samples]; omega) := by
      congr 1
    rw [this]
    simp [samples]
  have hall : ∀ f : K → K, e.t.map f = samples f t0 dt 0 e.t.length := by
    intro f
    conv_lhs => rw [ht]
    simp [samples]
  rw [Ufd.estimate, hdt, hlen]
  simp only [hsub, hall]
  exact C31_exact_on_polynomials e.scheme ps hps t0 dt hdt0 e.t.length hk

/-- **C32, estimators.** An estimator made for some times applies its mask to the inputs as to the states, and rejects inputs
with another number of columns. (The states need not have a column for each time.) -/
theorem C32_made_inputs [Field K] [DecidableEq K] (a : TimesArg K) (name : List Char) (e : Ufd K)
    (h : Ufd.make a name = .ok e) (A : Mat K) (hA : A.WF) (hk : e.scheme.minSnapshots ≤ A.ncols) (U : InputArr K)
    (hU : U.toMat.WF) :
    (U.toMat.ncols ≠ A.ncols → e.estimate A (some U) = .error .dimensionality) ∧
    (U.toMat.ncols = A.ncols → ∃ S D V, e.estimate A (some U) = .ok (S, D, some V) ∧
      S.ncols = D.ncols ∧ V.ncols = S.ncols ∧ V.nrows = U.toMat.nrows ∧
      S.rows.map Except.ok = A.rows.map e.scheme.mask ∧
      V.rows.map Except.ok = U.toMat.rows.map e.scheme.mask) := by
  obtain ⟨-, ⟨dt, hu⟩, -⟩ := ((C31_constructor a name).1 e).1 h
  obtain ⟨l, s⟩ := e
  have h2 := hu.1
  simp only at h2 hk ⊢
  match l, h2 with
  | x :: y :: l, _ =>
    simp only [Ufd.estimate, Ufd.dt]
    refine ⟨fun hne => C32_misaligned_inputs_rejected s _ A U hne, fun heq => ?_⟩
    obtain ⟨S, D, V, h1, -, -, -, -, c1, c2, r1, hV, hm⟩ := C32_estimate_aligned s (y - x) A hA hk (some U) (by
      intro M hM
      cases hM
      exact ⟨hU, heq⟩)
    subst hV
    refine ⟨S, D, _, h1, c1.trans c2.symm, c1.symm, rfl, ?_, ?_⟩
    · rw [r1, map_map]
      exact map_congr_left fun r hr => (hm r (hA.2 r hr)).symm
    · simp only [map_map]
      exact map_congr_left fun r hr => (hm r ((hU.2 r hr).trans heq)).symm

/-- Inputs are cut like the states, and the states may have fewer columns than the estimator has times. -/
example : Ufd.estimate (⟨[1, 2, 3, 4, 5], .bwd2⟩ : Ufd ℚ) ⟨1, 4, [[0, 1, 4, 9]]⟩ (some (.vec [10, 11, 12, 13]))
    = .ok (⟨1, 2, [[4, 9]]⟩, ⟨1, 2, [[4, 6]]⟩, some ⟨1, 2, [[12, 13]]⟩) := by decide +kernel

/-- Four equally spaced times. -/
example : Ufd.make (.arr [1, 3 / 2, 2, 5 / 2]) ['b', 'w', 'd', '2'] = .ok (⟨[1, 3 / 2, 2, 5 / 2], .bwd2⟩ : Ufd ℚ) ∧
    Ufd.make (.arr ([1, 3 / 2, 3] : List ℚ)) ['b', 'w', 'd', '2'] = .error .value ∧
    Ufd.make (.arr ([1] : List ℚ)) ['b', 'w', 'd', '2'] = .error .index ∧
    Ufd.make (.arr ([1, 3 / 2, 2] : List ℚ)) ['b', 'w', 'd', '7'] = .error .value := by
  refine ⟨?_, ?_, ?_, ?_⟩ <;> decide +kernel

end Opinf
