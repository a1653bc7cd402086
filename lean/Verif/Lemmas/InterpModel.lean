import Verif.Lemmas.ParamRegression
import Verif.Props.Fit

/-!
# Interpolatory models: the submodels and their interpolation
-/

namespace Opinf

open List

variable {K S : Type}

theorem fitSubs_ok [CommRing K] (plain : S) (l2 : Int → S) (I : SolverI K S) (B : PModel K S) (s : S)
    (i : Nat) (data : List (PSet K)) (Z : List (List (List K))) (Ns : List (Model K S))
    (hl : data.length = Z.length) (h : fitSubs plain l2 I B s i data Z = .ok Ns) :
    Ns.length = data.length ∧ ∀ k x L, data[k]? = some x → Z[k]? = some L →
      ∃ N, Ns[k]? = some N ∧ fitSub plain l2 I B s (i + k) x L = .ok N := by
  induction data generalizing i Z Ns with
  | nil =>
    cases Z with
    | nil => simp only [fitSubs, Except.ok.injEq] at h; subst h; simp
    | cons L Ls => simp at hl
  | cons x xs ih =>
    cases Z with
    | nil => simp at hl
    | cons L Ls =>
      simp only [fitSubs] at h
      cases hN : fitSub plain l2 I B s i x L with
      | error e => rw [hN] at h; simp at h
      | ok N =>
        rw [hN] at h
        simp only at h
        cases hNs : fitSubs plain l2 I B s (i + 1) xs Ls with
        | error e => rw [hNs] at h; simp at h
        | ok Ns' =>
          rw [hNs] at h
          simp only [Except.ok.injEq] at h
          subst h
          obtain ⟨h1, h2⟩ := ih (i + 1) Ls Ns' (by simpa using hl) hNs
          refine ⟨by simp [h1], ?_⟩
          intro k x' L' hx hL
          cases k with
          | zero =>
            simp only [getElem?_cons_zero, Option.some.injEq] at hx hL
            subst hx; subst hL
            exact ⟨N, rfl, hN⟩
          | succ k =>
            obtain ⟨N', a1, a2⟩ := h2 k x' L' (by simpa using hx) (by simpa using hL)
            exact ⟨N', by simpa using a1, by rw [← a2]; congr 1; omega⟩

theorem refitSubs_ok [AddMonoid K] (I : SolverI K S) (Ns Ns' : List (Model K S))
    (h : refitSubs I Ns = (Ns', .ok ())) : Forall₂ (fun N N' => N.refit I = (N', .ok ())) Ns Ns' := by
  induction Ns generalizing Ns' with
  | nil => simp only [refitSubs, Prod.mk.injEq, and_true] at h; subst h; exact .nil
  | cons N Ns ih =>
    simp only [refitSubs] at h
    rcases hN : N.refit I with ⟨N1, x⟩
    rw [hN] at h
    cases x with
    | error e => simp at h
    | ok u =>
      simp only [Prod.mk.injEq] at h
      rw [← h.1]
      exact .cons hN (ih (refitSubs I Ns).1 (Prod.ext rfl h.2))

theorem reinterpolateAll_ok [AddMonoid K] [LinearOrder K] (lib : ItpLib K) (ps : List (Par K))
    (Ns : List (Model K S)) (ell : Nat) (slots slots' : List (PSlot K))
    (h : reinterpolateAll lib ps Ns ell slots = (slots', .ok ())) :
    slots'.length = slots.length ∧ ∀ k s, slots[k]? = some s → ∃ o, slots'[k]? = some ⟨o, s.infer⟩ ∧
      reinterpolate lib ps Ns (ell + k) s.op = (o, .ok ()) := by
  induction slots generalizing ell slots' with
  | nil => simp only [reinterpolateAll, Prod.mk.injEq, and_true] at h; subst h; simp
  | cons s ss ih =>
    simp only [reinterpolateAll] at h
    rcases hN : reinterpolate lib ps Ns ell s.op with ⟨o, x⟩
    rw [hN] at h
    cases x with
    | error e => simp at h
    | ok u =>
      simp only [Prod.mk.injEq] at h
      obtain ⟨h1, h2⟩ := ih (ell + 1) (reinterpolateAll lib ps Ns (ell + 1) ss).1 (Prod.ext rfl h.2)
      rw [← h.1]
      refine ⟨by simp [h1], ?_⟩
      intro k s' hs'
      cases k with
      | zero =>
        simp only [getElem?_cons_zero, Option.some.injEq] at hs'
        subst hs'
        exact ⟨o, rfl, hN⟩
      | succ k =>
        obtain ⟨o', a1, a2⟩ := h2 k s' (by simpa using hs')
        exact ⟨o', by simpa using a1, by rw [← a2]; congr 1; omega⟩

/-- Setting the entries of an interpolated operator one by one: at the training parameters it evaluates to
them. -/
theorem setList_node [Field K] [LinearOrder K] (lib : ItpLib K) (t t' : Interp K) (ps : List (Par K))
    (P : PArr K) (hP : PArr.ofPars ps = .ok P) (hpar : t.params = some P) (hp : t.p = some P.dim)
    (hl : (POp.itp t).Learnable lib ps) (r m : Nat) (hr : 0 < r) (As : List (Mat K))
    (hlA : As.length = ps.length) (hfit : ∀ A ∈ As, t.kind.Fits A r m)
    (h : t.setEntries lib (.list As) = (t', .ok ())) (i : Nat) (mu : Par K) (A : Mat K)
    (hmu : ps[i]? = some mu) (hA : As[i]? = some A) :
    (POp.itp t').EvalsTo lib mu r m ⟨t.kind, some A⟩ ∧ t'.kind = t.kind := by
  obtain ⟨hnd, hcls, hdef⟩ := hl
  obtain ⟨w1, w2, w3⟩ := ofPars_wf hP
  have htp := toPars_ofPars hP
  rw [Interp.setEntries_eq lib t P hpar r m hr As (by rw [hlA, w2]) hfit] at h
  cases hb : lib.build (itpData t.cls P As).1 (itpData t.cls P As).2.1 (itpData t.cls P As).2.2 with
  | error e => rw [hb] at h; simp at h
  | ok u =>
    rw [hb] at h
    simp only [Prod.mk.injEq, and_true, hpar, hp] at h
    have ht' : t' = interpOf t.kind t.cls P As := h.symm
    subst ht'
    have hint : Interpolates lib (itpData t.cls P As).1 := by
      cases hc : t.cls with
      | some c => exact hcls c (by rw [hc]; rfl)
      | none =>
        cases P with
        | one xs => exact (hdef hc).1
        | two p rows => exact (hdef hc).2
    have hi : i < ps.length := (List.getElem?_eq_some_iff.mp hmu).1
    have hz : (mu.norm, A) ∈ zip P.toPars As := by
      rw [mem_iff_getElem?]
      refine ⟨i, ?_⟩
      rw [getElem?_zip_eq_some]
      exact ⟨by rw [htp, getElem?_map, hmu]; rfl, hA⟩
    refine ⟨⟨?_, rfl, A, rfl, hfit A (mem_of_getElem? hA)⟩, rfl⟩
    simp only [POp.evaluate]
    rw [Interp.evaluate_norm lib (interpOf t.kind t.cls P As) mu (by
      show some P.dim = _; rw [w3 mu (mem_of_getElem? hmu)])]
    exact Interp.evaluate_node lib t.kind t.cls P w1 r m hr As (by rw [hlA, w2]) hfit hb hint
      (by rw [htp]; exact hnd) _ _ hz

theorem subEntries_ok (ell : Nat) (Ns : List (Model K S)) (As : List (Mat K))
    (h : subEntries ell Ns = .ok As) :
    As.length = Ns.length ∧ ∀ (i : Nat) N, Ns[i]? = some N →
      ∃ o A, N.ops[ell]? = some o ∧ o.entries = some A ∧ As[i]? = some A := by
  unfold subEntries at h
  rw [mapM_ok_forall2] at h
  refine ⟨h.length_eq.symm, ?_⟩
  intro i N hN
  have hi : i < Ns.length := (List.getElem?_eq_some_iff.mp hN).1
  have hi' : i < As.length := by rw [← h.length_eq]; exact hi
  have := forall₂_getElem? h hN (getElem?_eq_getElem hi')
  split at this
  · cases this
  · rename_i o ho
    split at this
    · cases this
    · rename_i E hE
      refine ⟨o, E, ho, hE, ?_⟩
      rw [getElem?_eq_getElem hi']
      exact congrArg some (Except.ok.inj this).symm

/-- Splitting a statement about the concatenated samples into one about every data set. -/
theorem unflatten {r m : Nat} {hasIn : Bool} {P : Par K × List K × Option (List K) → List K → List K → Prop}
    {data : List (PSet K)} (hd : ∀ x ∈ data, x.OK r m hasIn) {Ls Z : List (List (List K))}
    (hL : Forall₂ (fun (x : PSet K) L => L.length = x.states.length) data Ls)
    (hZ : Forall₂ (fun (x : PSet K) L => L.length = x.states.length) data Z)
    (h : ∀ (j : Nat) y, (dataSamples (data.map PSet.triple))[j]? = some y →
      ∃ l z, Ls.flatten[j]? = some l ∧ Z.flatten[j]? = some z ∧ P y l z) :
    ∀ (i : Nat) x L z, data[i]? = some x → Ls[i]? = some L → Z[i]? = some z →
      ∀ (j : Nat) y, (dataSamples [x.triple])[j]? = some y →
        ∃ l c, L[j]? = some l ∧ z[j]? = some c ∧ P y l c := by
  induction data generalizing Ls Z with
  | nil => intro i x L z hx; simp at hx
  | cons x0 data ih =>
    cases hL with
    | @cons _ L0 _ Ls h1 hL =>
    cases hZ with
    | @cons _ Z0 _ Z h2 hZ =>
    have hlen : (dataSamples [x0.triple]).length = x0.states.length := dataSamples_length (hd x0 mem_cons_self)
    intro i x L z hx hLi hzi j y hy
    cases i with
    | zero =>
      simp only [getElem?_cons_zero, Option.some.injEq] at hx hLi hzi
      subst hx; subst hLi; subst hzi
      have hj : j < (dataSamples [x0.triple]).length := (List.getElem?_eq_some_iff.mp hy).1
      obtain ⟨l, c, a1, a2, a3⟩ := h j y (by
        rw [map_cons, samples_cons x0.triple, getElem?_append_left hj]; exact hy)
      rw [flatten_cons, getElem?_append_left (by omega)] at a1 a2
      exact ⟨l, c, a1, a2, a3⟩
    | succ i =>
      refine ih (fun x hx => hd x (mem_cons_of_mem _ hx)) hL hZ ?_ i x L z (by simpa using hx)
        (by simpa using hLi) (by simpa using hzi) j y hy
      intro j y hy
      obtain ⟨l, c, a1, a2, a3⟩ := h (x0.states.length + j) y (by
        rw [map_cons, samples_cons x0.triple, getElem?_append_right (by omega), hlen, Nat.add_sub_cancel_left]
        exact hy)
      rw [flatten_cons, getElem?_append_right (by omega), h1, Nat.add_sub_cancel_left] at a1
      rw [flatten_cons, getElem?_append_right (by omega), h2, Nat.add_sub_cancel_left] at a2
      exact ⟨l, c, a1, a2, a3⟩

/-- A successful `fit` calibrates all operators, with their classes unchanged. -/
theorem fit_cal [Field K] (I : SolverI K S) (M : Model K S) (hM : M.Inv)
    (hint : M.intrusive = false) (states lhs : Arg K) (inputs : Option (Arg K)) (hs : states.WF)
    (hl : lhs.WF) (hin : ∀ a ∈ inputs, a.WF) (hr : 0 < (atleast2d states).1)
    (hI : I.Shaped (atleast2d states).1) (M' : Model K S)
    (hfit : M.fit I states lhs inputs = (M', .ok ())) (m : Nat)
    (hm : M.hasInputs = true → ∀ a ∈ inputs, (atleast2d a).1 = m) :
    M'.ops.map Op.kind = M.ops.map Op.kind ∧ ∀ o ∈ M'.ops, o.Cal (atleast2d states).1 m := by
  obtain ⟨s, M1, Z, D, O, m0, f1, f2, f3, f4, f5, f6, f7, f8, f9, f10, f11, f12, f13, f14, f15, f16,
    f17, f18, f19, f20, f21⟩ := fit_master I M hM hint states lhs inputs hs hl hin hI M' hfit
  obtain ⟨e1, e2, -, e4⟩ := extractLoop_spec (atleast2d states).1 m0 hr O f11 f12 M1.slots 0
    (by rw [f13, f14]; simp)
  have hslots : M'.slots = (extractLoop (atleast2d states).1 m0 O 0 M1.slots).1 := by rw [f20]
  have hkinds : M'.ops.map Op.kind = M.ops.map Op.kind := by
    rw [Model.ops, Model.ops, hslots, (slotStep_kinds e2).1, f2, clearSlots_kinds]
  refine ⟨hkinds, ?_⟩
  have hcal0 : ∀ o ∈ M'.ops, o.Cal (atleast2d states).1 m0 := by
    intro o ho
    obtain ⟨sl, hsl, rfl⟩ := mem_map.mp ho
    rw [hslots] at hsl
    obtain ⟨t, ht, t1, t2, t3, t4⟩ := forall₂_mem_right e2 hsl
    cases hi : t.infer
    · rw [t3 hi]
      have hk : ∃ E, t.op.entries = some E := by
        rw [f2] at ht
        obtain ⟨t', ht', h1, h2, h3, h4⟩ := mem_clearSlots ht
        rw [h4 (h1 ▸ hi)]
        exact Option.isSome_iff_exists.mp (hM.known t' ht' (h1 ▸ hi))
      obtain ⟨E, hE⟩ := hk
      exact f8 _ (mem_map.mpr ⟨t, ht, rfl⟩) E hE
    · exact t4 hi
  intro o ho
  obtain ⟨E, hE, hF⟩ := hcal0 o ho
  refine ⟨E, hE, ?_⟩
  by_cases hi : o.kind.hasInputs = true
  · have : M.hasInputs = true := by
      rw [hM.inputs, any_eq_true]
      have : o.kind ∈ M.ops.map Op.kind := by rw [← hkinds]; exact mem_map.mpr ⟨o, ho, rfl⟩
      obtain ⟨o', ho', hk⟩ := mem_map.mp this
      exact ⟨o', ho', by rw [hk]; exact hi⟩
    obtain ⟨a, ha, ham⟩ := f7 this
    have := hm this a (by rw [ha]; rfl)
    rw [← this, ham]
    exact hF
  · refine ⟨hF.1, hF.2.1, ?_⟩
    rw [hF.2.2]
    exact dim_ignores_input _ (by simpa using hi) _ _ _

theorem construct_solver [CommRing K] (plain : S) (l2 : Int → S) (args : List (OpArg K)) (s : S) (N : Model K S)
    (h : Model.construct plain l2 args (.obj s) = .ok N) (hi : N.intrusive = false) : N.solver = some s := by
  unfold Model.construct at h
  split at h
  · cases h
  · rename_i M hM
    split at h
    · cases h
    · rename_i M2 hM2
      cases h
      unfold Model.setSolver at hM2
      split at hM2
      · rename_i hint
        simp only [Prod.mk.injEq, and_true] at hM2
        rw [← hM2] at hi
        simp [hint] at hi
      · simp only [Prod.mk.injEq, and_true] at hM2
        rw [← hM2]

end Opinf
