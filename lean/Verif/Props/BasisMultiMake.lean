import Verif.Props.BasisMulti
import Verif.Props.PodHistory

/-!
# C46: the constructor of multi-variable bases, and POD bases as parts
-/

namespace Opinf

open List

variable {K S : Type}

/-- The name of variable `i`: the one its basis has, or `"variable i"`. -/
def variableName (I : BasI K S) (b : S) (i : Nat) : String := (I.name b).getD s!"variable {i}"

/-- Setting a name or a dimension sets just that. -/
structure BasI.Labels (I : BasI K S) : Prop where
  name_set : ∀ s x, I.name (I.setName s (some x)) = some x
  name_n : ∀ s x, I.n (I.setName s x) = I.n s
  name_r : ∀ s x, I.r (I.setName s x) = I.r s
  n_set : ∀ s n, I.n (I.setN s n) = some n
  n_name : ∀ s n, I.name (I.setN s n) = I.name s
  n_r : ∀ s n, I.r (I.setN s n) = I.r s

/-- **C46.** `BasisMulti(bases, full_variable_sizes)` accepts every positive number of bases together with as many
sizes or none, and raises `ValueError` for everything else. All variables then have names (the ones given, or their
positions), each basis has the size prescribed for it, or its own if none are, and its own reduced dimension. -/
theorem C46_constructor (I : BasI K S) (hI : I.Labels) (bs : List S) (sizes : Option (List Nat)) :
    ((bs = [] ∨ ∃ ns, sizes = some ns ∧ ns.length ≠ bs.length) → basisMultiMake I bs sizes = .error .value) ∧
    (¬ (bs = [] ∨ ∃ ns, sizes = some ns ∧ ns.length ≠ bs.length) → ∃ bs', basisMultiMake I bs sizes = .ok bs' ∧
      bs'.length = bs.length ∧ ∀ i b, bs[i]? = some b → ∃ b', bs'[i]? = some b' ∧
        I.name b' = some (variableName I b i) ∧ I.r b' = I.r b ∧
        (sizes = none → I.n b' = I.n b) ∧ (∀ ns, sizes = some ns → I.n b' = ns[i]?)) := by
  have hl : (basisNames I bs).length = bs.length := by simp [basisNames]
  have hname : ∀ i b, bs[i]? = some b → ∃ b', (basisNames I bs)[i]? = some b' ∧
      I.name b' = some (variableName I b i) ∧ I.r b' = I.r b ∧ I.n b' = I.n b := by
    intro i b hb
    refine ⟨if (I.name b).isNone then I.setName b (some s!"variable {i}") else b, ?_, ?_⟩
    · simp [basisNames, getElem?_mapIdx, hb]
    · cases hn : I.name b with
      | none =>
        simp only [Option.isNone_none, if_true, variableName, hn, Option.getD_none]
        exact ⟨hI.name_set _ _, hI.name_r _ _, hI.name_n _ _⟩
      | some x =>
        simp only [Option.isNone_some, Bool.false_eq_true, if_false, variableName, hn, Option.getD_some]
        simp
  constructor
  · rintro (rfl | ⟨ns, rfl, h⟩)
    · rfl
    · simp only [basisMultiMake]
      simp [h]
  · intro h
    rw [not_or] at h
    obtain ⟨h0, h1⟩ := h
    have he : bs.isEmpty = false := by cases bs with
      | nil => exact absurd rfl h0
      | cons b bs => rfl
    cases sizes with
    | none =>
      refine ⟨basisNames I bs, by simp [basisMultiMake, he], hl, fun i b hb => ?_⟩
      obtain ⟨b', g1, g2, g3, g4⟩ := hname i b hb
      exact ⟨b', g1, g2, g3, fun _ => g4, fun ns h => by cases h⟩
    | some ns =>
      have hns : ns.length = bs.length := by
        by_contra hc
        exact h1 ⟨ns, rfl, hc⟩
      refine ⟨zipWith (fun b n => I.setN b n) (basisNames I bs) ns, by simp [basisMultiMake, he, hns], by simp [hl, hns],
        fun i b hb => ?_⟩
      obtain ⟨b', g1, g2, g3, -⟩ := hname i b hb
      have hi : i < ns.length := by
        rw [hns]
        exact (List.getElem?_eq_some_iff.1 hb).1
      refine ⟨I.setN b' ns[i], ?_, (hI.n_name _ _).trans g2, (hI.n_r _ _).trans g3, (fun h => by cases h), fun ns' h => ?_⟩
      · rw [getElem?_zipWith, g1, getElem?_eq_getElem hi]
      · cases h
        rw [hI.n_set, getElem?_eq_getElem hi]

/-- **C46.** The dimensions of a multi-variable basis whose parts are trained POD bases: the full dimensions are the
lengths of the basis vectors in use, the reduced dimensions their numbers, also if more vectors are stored. -/
theorem C46_pod_parts [Field K] [LinearOrder K] (ext : PodExt K) (bs : List (Pod K)) (h0 : bs ≠ [])
    (h : ∀ b ∈ bs, b.Consistent ∧ b.svd.isSome = true) : ∃ Vs : List (Cols K),
      Forall₂ (fun b V => b.lin.entries = some V) bs Vs ∧
      BasisDims (podI ext) bs (Vs.map Cols.n) (Vs.map fun V => V.cols.length) := by
  have key : ∀ bs : List (Pod K), (∀ b ∈ bs, b.Consistent ∧ b.svd.isSome = true) → ∃ Vs : List (Cols K),
      Forall₂ (fun b V => b.lin.entries = some V ∧ (podI ext).n b = some V.n ∧
        (podI ext).r b = some V.cols.length) bs Vs := by
    intro bs
    induction bs with
    | nil => exact fun _ => ⟨[], .nil⟩
    | cons b bs ih =>
      intro h
      obtain ⟨Vs, hV⟩ := ih fun b hb => h b (mem_cons_of_mem _ hb)
      obtain ⟨hc, hd⟩ := h b mem_cons_self
      obtain ⟨d, hd⟩ := Option.isSome_iff_exists.1 hd
      obtain ⟨r, h1, h2, h3, h4, -⟩ := hc.trained d hd
      refine ⟨⟨d.left.n, d.left.cols.take r⟩ :: Vs, .cons ⟨h4, h3, ?_⟩ hV⟩
      simp only [podI, h2, Option.map_some, Int.toNat_natCast, length_take, Nat.min_eq_left h1]
  obtain ⟨Vs, hV⟩ := key bs h
  refine ⟨Vs, hV.imp fun _ _ h => h.1, h0, ?_, ?_⟩
  · rw [forall₂_map_right_iff]
    exact hV.imp fun _ _ h => h.2.1
  · rw [forall₂_map_right_iff]
    exact hV.imp fun _ _ h => h.2.2

/-- POD bases have such labels. -/
example (ext : PodExt ℚ) : (podI ext).Labels := ⟨fun _ _ => rfl, fun _ _ => rfl, fun _ _ => rfl, fun _ _ => rfl,
  fun _ _ => rfl, fun _ _ => rfl⟩

/-- Two named variables and one without a name, with sizes. -/
example : (basisMultiMake (podI exPodExt) [exPod, { exPod with lin := { exPod.lin with name := some "p" } }]
    (some [3, 4])).map (fun bs => bs.map fun b => (b.lin.name, b.lin.n)) =
    .ok [(some "variable 0", some 3), (some "p", some 4)] := by decide +kernel

/-- A trained POD basis that uses one of its three stored vectors. -/
example : ∃ s, Pod.make (K := ℚ) ⟨none, none, some (9/10), none, none⟩ none false false .none none = .ok s ∧
    ([PodCall.fit (.mat 3 [[3, 0, 0], [0, 2, 0], [0, 0, 1]]), .setR 1].foldl (PodCall.run exPodExt) s).Consistent ∧
    ([PodCall.fit (.mat 3 [[3, 0, 0], [0, 2, 0], [0, 0, 1]]), .setR 1].foldl (PodCall.run exPodExt) s).svd.isSome ∧
    (podI exPodExt).r ([PodCall.fit (.mat 3 [[3, 0, 0], [0, 2, 0], [0, 0, 1]]), .setR 1].foldl
      (PodCall.run exPodExt) s) = some 1 := by
  refine ⟨_, rfl, ?_, by decide +kernel, by decide +kernel⟩
  refine C44_history exPodExt ⟨none, none, some (9/10), none, none⟩ (fun v h => by cases h) none false false .none none _
    rfl _ fun o ho => ?_
  simp only [mem_cons, not_mem_nil, or_false] at ho
  rcases ho with rfl | rfl
  · trivial
  · show (0 : Int) ≤ 1
    decide

end Opinf
