import Verif.Lemmas.Translate

/-!
# Orthogonal changes of coordinates act orthogonally on the data vectors
-/

namespace Opinf

open List

variable {K : Type}

/-- A square matrix that preserves inner products. -/
structure IsIso [CommSemiring K] (n : Nat) (L : List (List K)) : Prop where
  isMat : IsMat n n L
  dots : ∀ x y : List K, x.length = n → y.length = n → dot (matVec L x) (matVec L y) = dot x y

/-- A matrix with one entry of square one in each row and in each column: it reorders the entries and changes signs. -/
structure SignedPerm [CommSemiring K] (r : Nat) (T : List (List K)) (p : Nat → Nat) (s : Nat → K) : Prop where
  isMat : IsMat r r T
  acts : ∀ x : List K, x.length = r → matVec T x = (range r).map fun i => s i * x.getD (p i) 0
  lt : ∀ i, i < r → p i < r
  inj : ∀ i j, i < r → j < r → p i = p j → i = j
  sign : ∀ i, i < r → s i * s i = 1

section

variable [CommRing K]

/-- Block-diagonal matrices. -/
def blockRows (a b : Nat) (A B : List (List K)) : List (List K) :=
  A.map (· ++ replicate b 0) ++ B.map (replicate a 0 ++ ·)

theorem matVec_blockRows {a b : Nat} {A B : List (List K)} (hA : ∀ x ∈ A, x.length = a) {x y : List K} (hx : x.length = a) :
    matVec (blockRows a b A B) (x ++ y) = matVec A x ++ matVec B y := by
  rw [matVec, blockRows, map_append, map_map, map_map, matVec, matVec]
  congr 1
  · refine map_congr_left fun c hc => ?_
    simp only [Function.comp_apply]
    rw [dot_append _ _ _ _ (by rw [hA c hc, hx]), dot_replicate_zero, add_zero]
  · refine map_congr_left fun c hc => ?_
    simp only [Function.comp_apply]
    rw [dot_append _ _ _ _ (by rw [length_replicate, hx]), dot_replicate_zero, zero_add]

theorem IsIso.block {a b : Nat} {A B : List (List K)} (hA : IsIso a A) (hB : IsIso b B) : IsIso (a + b) (blockRows a b A B) := by
  refine ⟨⟨by simp [blockRows, hA.isMat.1, hB.isMat.1], fun x hx => ?_⟩, fun x y hx hy => ?_⟩
  · rcases mem_append.1 hx with h | h
    · obtain ⟨c, hc, rfl⟩ := mem_map.1 h
      simp [hA.isMat.2 c hc]
    · obtain ⟨c, hc, rfl⟩ := mem_map.1 h
      simp [hB.isMat.2 c hc]
  · have lx : (x.take a).length = a := by rw [length_take]; omega
    have ly : (y.take a).length = a := by rw [length_take]; omega
    rw [← take_append_drop a x, ← take_append_drop a y, matVec_blockRows hA.isMat.2 lx, matVec_blockRows hA.isMat.2 ly,
      dot_append _ _ _ _ (by rw [length_matVec, length_matVec]), dot_append _ _ _ _ (by rw [lx, ly]),
      hA.dots _ _ lx ly, hB.dots _ _ (by rw [length_drop]; omega) (by rw [length_drop]; omega)]

theorem eye_iso (n : Nat) : IsIso (K := K) n (eye n) :=
  ⟨⟨by simp [eye], fun row h => by
    obtain ⟨i, _, rfl⟩ := mem_map.1 h
    simp⟩, fun x y hx hy => by rw [matVec_eye _ _ hx, matVec_eye _ _ hy]⟩

theorem map_sum_perm {α : Type} {l l' : List α} (h : l.Perm l') (f : α → K) : (l.map f).sum = (l'.map f).sum :=
  (h.map f).sum_eq

theorem dot_over {α : Type} (l : List α) (f g : α → K) : dot (l.map f) (l.map g) = (l.map fun i => f i * g i).sum := by
  rw [dot, zipWith_map, zipWith_self]

theorem list_over (x : List K) (n : Nat) (h : x.length = n) : x = (range n).map fun i => x.getD i 0 := by
  refine ext_getElem (by simp [h]) fun i h1 h2 => ?_
  simp [h1]

theorem range_perm {r : Nat} {p : Nat → Nat} (lt : ∀ i, i < r → p i < r) (inj : ∀ i j, i < r → j < r → p i = p j → i = j) :
    ((range r).map p).Perm (range r) := by
  refine (Nodup.subperm ?_ ?_).perm_of_length_le (by simp)
  · exact (nodup_map_iff_inj_on nodup_range).2 fun i hi j hj h => inj i j (mem_range.1 hi) (mem_range.1 hj) h
  · intro x hx
    obtain ⟨i, hi, rfl⟩ := mem_map.1 hx
    exact mem_range.2 (lt i (mem_range.1 hi))

theorem SignedPerm.iso {r : Nat} {T : List (List K)} {p : Nat → Nat} {s : Nat → K} (h : SignedPerm r T p s) : IsIso r T := by
  refine ⟨h.isMat, fun x y hx hy => ?_⟩
  rw [h.acts x hx, h.acts y hy, dot_over]
  conv_rhs => rw [list_over x r hx, list_over y r hy, dot_over]
  refine Eq.trans ?_ (map_sum_perm (range_perm h.lt h.inj) _)
  rw [map_map]
  refine congrArg List.sum (map_congr_left fun i hi => ?_)
  simp only [Function.comp_apply]
  calc s i * x.getD (p i) 0 * (s i * y.getD (p i) 0) = (s i * s i) * (x.getD (p i) 0 * y.getD (p i) 0) := by ring
    _ = x.getD (p i) 0 * y.getD (p i) 0 := by rw [h.sign i (mem_range.1 hi), one_mul]

/-- The data block at the new state is an orthogonal matrix times the data block at the old state. -/
def IsoBlock (o : OpKind) (r m : Nat) (T : List (List K)) : Prop :=
  ∃ L : List (List K), IsIso (o.dim r m) L ∧ ∀ (q : List K) (u : Option (List K)), q.length = r → InputOK o m u →
    matVec L (o.dataCol q (u.getD [])) = o.dataCol (matVec T q) (u.getD [])

theorem iso_stateInp {r : Nat} {T : List (List K)} (hT : IsIso r T) (m : Nat) :
    ∃ L : List (List K), IsIso (r * m) L ∧ ∀ q u : List K, q.length = r → u.length = m →
      matVec L (Opinf.kron u q) = Opinf.kron u (matVec T q) := by
  induction m with
  | zero =>
    refine ⟨[], ⟨⟨rfl, by simp⟩, fun x y hx hy => ?_⟩, fun q u _ hu => ?_⟩
    · rw [Nat.mul_zero] at hx hy
      rw [length_eq_zero_iff.1 hx, length_eq_zero_iff.1 hy]
      rfl
    · rw [length_eq_zero_iff.1 hu]
      rfl
  | succ m ih =>
    obtain ⟨L, h1, h2⟩ := ih
    refine ⟨blockRows r (r * m) T L, ?_, fun q u hq hu => ?_⟩
    · have := hT.block h1
      rwa [show r * (m + 1) = r + r * m by ring]
    · match u, hu with
      | x :: u, hu =>
        have e : ∀ y : List K, Opinf.kron (x :: u) y = vsmul x y ++ Opinf.kron u y := fun y => rfl
        rw [e, e, matVec_blockRows hT.isMat.2 (by simp [vsmul, hq]), h2 q u hq (by simpa using hu), matVec_vsmul]

theorem iso_kron {r m : Nat} {T : List (List K)} {p : Nat → Nat} {s : Nat → K} (h : SignedPerm r T p s) (k : Kind) :
    IsoBlock (.kron k) r m T := by
  obtain ⟨l, hl⟩ : ∃ l, l = monoms k.deg r := ⟨_, rfl⟩
  have hd : OpKind.dim (.kron k) r m = l.length := by rw [OpKind.dim, dim_eq_length, hl]
  have nd : l.Nodup := by rw [hl]; exact nodup_monoms _ _
  -- the monomial of the reordered entries and its sign
  obtain ⟨g, hg⟩ : ∃ g : List Nat → List Nat, g = fun a => srt (a.map p) := ⟨_, rfl⟩
  obtain ⟨σ, hσ⟩ : ∃ σ : List Nat → K, σ = fun a => (a.map s).prod := ⟨_, rfl⟩
  have gmem : ∀ a ∈ l, g a ∈ l := by
    intro a ha
    rw [hl] at ha ⊢
    obtain ⟨a1, a2, a3⟩ := mem_monoms.1 ha
    rw [hg]
    refine mem_monoms.2 ⟨by rw [(srt_perm _).length_eq, length_map, a1], pairwise_insertionSort _ _, fun x hx => ?_⟩
    obtain ⟨i, hi, rfl⟩ := mem_map.1 ((srt_perm _).mem_iff.1 hx)
    exact h.lt i (a3 i hi)
  have ginj : ∀ a ∈ l, ∀ b ∈ l, g a = g b → a = b := by
    intro a ha b hb e
    rw [hl] at ha hb
    have pa := (mem_monoms.1 ha).2.2
    have pb := (mem_monoms.1 hb).2.2
    have hp : (a.map p).Perm (b.map p) := by
      have e' : srt (a.map p) = srt (b.map p) := by rw [hg] at e; exact e
      exact (srt_perm _).symm.trans (e' ▸ srt_perm _)
    have hinv : ∃ v : Nat → Nat, ∀ i, i < r → v (p i) = i := by
      refine ⟨fun j => ((range r).find? fun i => p i == j).getD 0, fun i hi => ?_⟩
      have : ((range r).find? fun i' => p i' == p i).isSome := by
        rw [find?_isSome]
        exact ⟨i, mem_range.2 hi, by simp⟩
      obtain ⟨i', hi'⟩ := Option.isSome_iff_exists.1 this
      simp only [hi', Option.getD_some]
      exact h.inj i' i (mem_range.1 (mem_of_find?_eq_some hi')) hi (by simpa using find?_some hi')
    obtain ⟨v, hv⟩ := hinv
    have hab : a.Perm b := by
      have := hp.map v
      rw [map_map, map_map] at this
      rwa [show a.map (v ∘ p) = a from (map_congr_left fun i hi => hv i (pa i hi)).trans (map_id a),
        show b.map (v ∘ p) = b from (map_congr_left fun i hi => hv i (pb i hi)).trans (map_id b)] at this
    rw [← srt_eq_of_mem ha (Perm.refl a), srt_congr hab, srt_eq_of_mem hb (Perm.refl b)]
  have gperm : (l.map g).Perm l := by
    refine (Nodup.subperm ?_ ?_).perm_of_length_le (by simp)
    · exact (nodup_map_iff_inj_on nd).2 fun a ha b hb e => ginj a ha b hb e
    · intro x hx
      obtain ⟨a, ha, rfl⟩ := mem_map.1 hx
      exact gmem a ha
  have sgn : ∀ a ∈ l, σ a * σ a = 1 := by
    intro a ha
    rw [hl] at ha
    have pa := (mem_monoms.1 ha).2.2
    rw [hσ]
    clear ha
    induction a with
    | nil => simp
    | cons i a ih =>
      have := ih fun x hx => pa x (mem_cons_of_mem _ hx)
      simp only [map_cons, prod_cons] at this ⊢
      calc s i * (a.map s).prod * (s i * (a.map s).prod) = (s i * s i) * ((a.map s).prod * (a.map s).prod) := by ring
        _ = 1 := by rw [h.sign i (pa i mem_cons_self), this, one_mul]
  have at_ : ∀ x : List K, x.length = l.length → x = l.map fun a => x.getD (l.idxOf a) 0 := by
    intro x hx
    refine ext_getElem (by simp [hx]) fun i h1 h2 => ?_
    have hi : i < l.length := by rw [← hx]; exact h1
    rw [getElem_map, Nodup.idxOf_getElem nd i hi, Opinf.getD_eq_getElem _ _ h1]
  obtain ⟨L, hL⟩ : ∃ L : List (List K), L = l.map fun a => vsmul (σ a)
      ((range l.length).map fun i => if l.idxOf (g a) = i then 1 else 0) := ⟨_, rfl⟩
  have act : ∀ x : List K, x.length = l.length → matVec L x = l.map fun a => σ a * x.getD (l.idxOf (g a)) 0 := by
    intro x hx
    rw [hL, matVec, map_map]
    refine map_congr_left fun a ha => ?_
    simp only [Function.comp_apply]
    rw [dot_vsmul_left, dot_comm', dot_unit l.length _ x hx (idxOf_lt_length_of_mem (gmem a ha))]
  refine ⟨L, ?_, fun q u hq _ => ?_⟩
  · rw [hd]
    refine ⟨⟨by simp [hL], fun a ha => ?_⟩, fun x y hx hy => ?_⟩
    · rw [hL] at ha
      obtain ⟨b, _, rfl⟩ := mem_map.1 ha
      simp [vsmul]
    · rw [act x hx, act y hy, dot_over]
      conv_rhs => rw [at_ x hx, at_ y hy, dot_over]
      refine Eq.trans ?_ (map_sum_perm gperm _)
      rw [map_map]
      refine congrArg List.sum (map_congr_left fun a ha => ?_)
      simp only [Function.comp_apply]
      calc σ a * x.getD (l.idxOf (g a)) 0 * (σ a * y.getD (l.idxOf (g a)) 0) =
          (σ a * σ a) * (x.getD (l.idxOf (g a)) 0 * y.getD (l.idxOf (g a)) 0) := by ring
        _ = x.getD (l.idxOf (g a)) 0 * y.getD (l.idxOf (g a)) 0 := by rw [sgn a ha, one_mul]
  · have hTq : (matVec T q).length = r := by rw [length_matVec, h.isMat.1]
    simp only [OpKind.dataCol]
    rw [ckron_eq, ckron_eq, hq, hTq, ← hl, act _ (by simp)]
    refine map_congr_left fun a ha => ?_
    have hi : l.idxOf (g a) < l.length := idxOf_lt_length_of_mem (gmem a ha)
    rw [Opinf.getD_eq_getElem _ _ (by simpa using hi), getElem_map, getElem_idxOf hi]
    have e1 : mono q (g a) = mono q (a.map p) := by rw [hg]; exact mono_perm q (srt_perm _)
    have pa := (mem_monoms.1 (hl ▸ ha)).2.2
    rw [e1, hσ, h.acts q hq]
    clear ha hi e1
    induction a with
    | nil => simp [mono]
    | cons i a ih =>
      have := ih fun x hx => pa x (mem_cons_of_mem _ hx)
      have hi := pa i mem_cons_self
      simp only [mono, map_cons, prod_cons, map_map] at this ⊢
      have e2 : ((range r).map fun i => s i * q.getD (p i) 0).getD i 0 = s i * q.getD (p i) 0 := by
        rw [Opinf.getD_eq_getElem _ _ (by simpa using hi)]
        simp only [getElem_map, getElem_range]
      rw [← this, e2]
      ring

theorem iso_block {o : OpKind} {r m : Nat} {T : List (List K)} (hT : IsIso r T)
    (hk : (∃ k, o = .kron k) → ∃ p s, SignedPerm r T p s) : IsoBlock o r m T := by
  cases o with
  | const => exact ⟨eye 1, eye_iso 1, fun q u _ _ => matVec_eye _ _ rfl⟩
  | inp =>
    refine ⟨eye m, eye_iso m, fun q u _ hu => ?_⟩
    obtain ⟨v, rfl, hv⟩ := hu rfl
    exact matVec_eye _ _ hv
  | lin => exact ⟨T, hT, fun q u _ _ => rfl⟩
  | kron k =>
    obtain ⟨p, s, h⟩ := hk ⟨k, rfl⟩
    exact iso_kron h k
  | stateInp =>
    obtain ⟨L, h1, h2⟩ := iso_stateInp hT m
    refine ⟨L, h1, fun q u hq hu => ?_⟩
    obtain ⟨v, rfl, hv⟩ := hu rfl
    exact h2 q v hq hv

/-- The data vector at the new state is an orthogonal matrix times the data vector at the old state. -/
theorem iso_features {kinds : List OpKind} {r m : Nat} {T : List (List K)} (hT : IsIso r T)
    (hk : (∃ k, OpKind.kron k ∈ kinds) → ∃ p s, SignedPerm r T p s) :
    ∃ L : List (List K), IsIso (kinds.map fun o => o.dim r m).sum L ∧ ∀ (q : List K) (u : Option (List K)), q.length = r →
      (∀ o ∈ kinds, InputOK o m u) →
        matVec L (dataVector kinds q (u.getD [])) = dataVector kinds (matVec T q) (u.getD []) := by
  induction kinds with
  | nil => exact ⟨[], ⟨⟨rfl, by simp⟩, fun x y hx hy => by
      rw [length_eq_zero_iff.1 hx, length_eq_zero_iff.1 hy]; rfl⟩, fun q u _ _ => rfl⟩
  | cons o kinds ih =>
    obtain ⟨L, h1, h2⟩ := ih fun ⟨k, h⟩ => hk ⟨k, mem_cons_of_mem _ h⟩
    obtain ⟨A, a1, a2⟩ := iso_block (o := o) (m := m) hT fun ⟨k, h⟩ => hk ⟨k, h ▸ mem_cons_self⟩
    refine ⟨blockRows _ _ A L, by rw [map_cons, sum_cons]; exact a1.block h1, fun q u hq hu => ?_⟩
    rw [dataVector, dataVector, flatMap_cons, flatMap_cons, matVec_blockRows a1.isMat.2
      (dataCol_length_ok hq (hu o mem_cons_self)), a2 q u hq (hu o mem_cons_self)]
    exact congrArg _ (h2 q u hq fun o h => hu o (mem_cons_of_mem _ h))

end

end Opinf
