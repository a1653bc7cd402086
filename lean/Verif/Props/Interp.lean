import Verif.Model.Interp
import Verif.Props.Affine

/-!
# C11, C12: interpolated operators

What the external interpolation classes are assumed to do is stated in `ItpLib.Contract`.
-/

namespace Opinf

open List

variable {K : Type}

/-- An interpolator of class `c` reproduces the data it was constructed from. -/
def Interpolates (lib : ItpLib K) (c : ItpClass) : Prop :=
  ∀ P As, lib.build c P As = .ok () → P.toPars.Nodup → As.length = P.length →
    ∀ mu A, (mu, A) ∈ zip P.toPars As → lib.eval c P As mu = .ok A

/-- What is assumed of `scipy.interpolate`: `CubicSpline` needs at least two points in strictly increasing
order and raises `ValueError` otherwise; both default classes interpolate; whether construction succeeds
does not depend on the values interpolated. -/
structure ItpLib.Contract [LinearOrder K] (lib : ItpLib K) : Prop where
  cubic_ok : ∀ xs As, 2 ≤ xs.length → xs.Pairwise (· < ·) → As.length = xs.length →
    lib.build .cubic (.one xs) As = .ok ()
  cubic_order : ∀ xs As, ¬ xs.Pairwise (· < ·) → lib.build .cubic (.one xs) As = .error .value
  cubic_few : ∀ xs As, xs.length < 2 → lib.build .cubic (.one xs) As = .error .value
  cubic_node : Interpolates lib .cubic
  linear_node : Interpolates lib .linearND
  cubic_values : ∀ P As Bs, As.length = Bs.length → lib.build .cubic P As = lib.build .cubic P Bs
  linear_values : ∀ P As Bs, As.length = Bs.length → lib.build .linearND P As = lib.build .linearND P Bs

/-! ### Parameter arrays -/

/-- The arrays that can be stored as training parameters. -/
def PArr.WF (P : PArr K) : Prop :=
  0 < P.length ∧ match P with
    | .one _ => True
    | .two p rows => p ≠ 1 ∧ ∀ row ∈ rows, row.length = p

theorem PArr.length_toPars (P : PArr K) : P.toPars.length = P.length := by
  cases P <;> simp [PArr.toPars, PArr.length]

theorem ofPars_toPars (P : PArr K) (h : P.WF) : PArr.ofPars P.toPars = .ok P := by
  cases P with
  | one xs => cases xs with
    | nil => simp [PArr.WF, PArr.length] at h
    | cons x xs =>
      simp only [PArr.toPars, map_cons, PArr.ofPars]
      rw [if_neg (by simp [Par.shape])]
      simp [Par.shape, Par.toList, flatMap_map]
  | two p rows => cases rows with
    | nil => simp [PArr.WF, PArr.length] at h
    | cons x xs =>
      obtain ⟨-, hp, hr⟩ := h
      have hx : x.length = p := hr x (by simp)
      simp only [PArr.toPars, map_cons, PArr.ofPars]
      rw [if_neg (by
        simp only [any_eq_true, not_exists, not_and]
        intro y hy
        have : ∃ row ∈ x :: xs, y = .vec row := by
          simp only [mem_cons, mem_map] at hy ⊢
          rcases hy with rfl | ⟨z, hz, rfl⟩
          · exact ⟨x, Or.inl rfl, rfl⟩
          · exact ⟨z, Or.inr hz, rfl⟩
        obtain ⟨row, hrow, rfl⟩ := this
        simp [Par.shape, hr row hrow, hx])]
      simp only [Par.shape, hx]
      rw [if_neg hp]
      simp only [Par.toList, map_map, PArr.two.injEq, Except.ok.injEq, cons.injEq, true_and]
      exact (map_congr_left fun _ _ => rfl).trans (map_id _)

theorem ofPars_wf {ps : List (Par K)} {P : PArr K} (h : PArr.ofPars ps = .ok P) :
    P.WF ∧ P.length = ps.length ∧ ∀ mu ∈ ps, mu.dim = P.dim := by
  cases ps with
  | nil => simp [PArr.ofPars] at h
  | cons mu ps =>
    simp only [PArr.ofPars] at h
    by_cases hany : ((mu :: ps).any fun x => decide (x.shape ≠ mu.shape)) = true
    · rw [if_pos hany] at h; simp at h
    · rw [if_neg hany] at h
      have hall : ∀ x ∈ mu :: ps, x.shape = mu.shape := by
        intro x hx
        by_contra hne
        exact hany (any_eq_true.mpr ⟨x, hx, by simpa using hne⟩)
      have hlen1 : ∀ l : List (Par K), (∀ x ∈ l, x.toList.length = 1) →
          (l.flatMap Par.toList).length = l.length := by
        intro l
        induction l with
        | nil => simp
        | cons a l ih =>
          intro hl
          rw [flatMap_cons, length_append, hl a (by simp), ih fun x hx => hl x (by simp [hx]),
            length_cons, Nat.add_comm]
      cases hs : mu.shape with
      | none =>
        rw [hs] at h
        simp only [Except.ok.injEq] at h
        subst h
        have h1 : ∀ x ∈ mu :: ps, x.toList.length = 1 ∧ x.dim = 1 := by
          intro x hx
          have := hall x hx
          rw [hs] at this
          cases x <;> simp_all [Par.shape, Par.toList, Par.dim]
        have h2 := hlen1 (mu :: ps) fun x hx => (h1 x hx).1
        exact ⟨⟨by simp only [PArr.length]; rw [h2]; simp, trivial⟩, h2, fun x hx => (h1 x hx).2⟩
      | some p =>
        rw [hs] at h
        simp only at h
        have h1 : ∀ x ∈ mu :: ps, x.toList.length = p ∧ x.dim = p := by
          intro x hx
          have := hall x hx
          rw [hs] at this
          cases x <;> simp_all [Par.shape, Par.toList, Par.dim]
        by_cases hp : p = 1
        · rw [if_pos hp] at h
          simp only [Except.ok.injEq] at h
          subst h
          have h2 := hlen1 (mu :: ps) fun x hx => (h1 x hx).1.trans hp
          exact ⟨⟨by simp only [PArr.length]; rw [h2]; simp, trivial⟩, h2,
            fun x hx => (h1 x hx).2.trans hp⟩
        · rw [if_neg hp] at h
          simp only [Except.ok.injEq] at h
          subst h
          refine ⟨⟨by simp [PArr.length], hp, ?_⟩, by simp [PArr.length], fun x hx => (h1 x hx).2⟩
          intro row hrow
          obtain ⟨x, hx, rfl⟩ := mem_map.mp hrow
          exact (h1 x hx).1

/-! ### The data of the interpolator -/

/-- The training parameters are vectors, or scalars in increasing order. -/
def PArr.Ordered [LinearOrder K] : PArr K → Prop
  | .one xs => xs.Pairwise (· ≤ ·)
  | .two _ _ => True

section
variable [LinearOrder K]

theorem sortPairs_perm (xs : List K) (As : List (Mat K)) : (sortPairs xs As).Perm (zip xs As) :=
  perm_insertionSort _ _

theorem sortPairs_sorted (xs : List K) (As : List (Mat K)) :
    ((sortPairs xs As).map Prod.fst).Pairwise (· ≤ ·) := by
  rw [pairwise_map]
  haveI : Std.Total (fun a b : K × Mat K => a.1 ≤ b.1) := ⟨fun a b => le_total _ _⟩
  haveI : IsTrans (K × Mat K) (fun a b => a.1 ≤ b.1) := ⟨fun a b c h1 h2 => le_trans h1 h2⟩
  exact pairwise_insertionSort (fun a b : K × Mat K => a.1 ≤ b.1) (zip xs As)

theorem itpData_some (c : ItpClass) (P : PArr K) (As : List (Mat K)) :
    itpData (some c) P As = (c, P, As) := by
  cases P <;> rfl

theorem itpData_ordered (c : Option ItpClass) (P : PArr K) (As : List (Mat K))
    (hlen : As.length = P.length) (h : c = none → P.Ordered) :
    itpData c P As = ((itpData c P As).1, P, As) := by
  cases c with
  | some c => rw [itpData_some]
  | none => cases P with
    | two p rows => rfl
    | one xs =>
      have hs := h rfl
      simp only [PArr.Ordered, PArr.length] at hs hlen
      have h1 : sortPairs xs As = zip xs As := by
        have h2 : ((zip xs As).map Prod.fst).Pairwise (· ≤ ·) := by
          rwa [map_fst_zip (by omega)]
        exact (pairwise_map.mp h2).insertionSort_eq
      simp only [itpData, h1]
      rw [map_fst_zip (by omega), map_snd_zip (by omega)]

theorem itpData_length (c : Option ItpClass) (P : PArr K) (As : List (Mat K))
    (hlen : As.length = P.length) :
    (itpData c P As).2.1.length = P.length ∧ (itpData c P As).2.2.length = As.length := by
  cases c with
  | some c => rw [itpData_some]; exact ⟨rfl, rfl⟩
  | none => cases P with
    | two p rows => exact ⟨rfl, rfl⟩
    | one xs =>
      have h := (sortPairs_perm xs As).length_eq
      simp only [PArr.length] at hlen
      rw [length_zip, hlen, Nat.min_self] at h
      simp only [itpData, PArr.length, length_map, h, hlen, and_self]

theorem itpData_zip (c : Option ItpClass) (P : PArr K) (As : List (Mat K))
    (hlen : As.length = P.length) :
    (zip (itpData c P As).2.1.toPars (itpData c P As).2.2).Perm (zip P.toPars As) := by
  cases c with
  | some c => rw [itpData_some]
  | none => cases P with
    | two p rows => exact Perm.refl _
    | one xs =>
      simp only [itpData, PArr.toPars, map_map]
      have h := (sortPairs_perm xs As).map (fun a => (Par.scalar a.1, a.2))
      have e1 : ∀ l : List (K × Mat K), l.map (fun a => (Par.scalar a.1, a.2))
          = zip (l.map (Par.scalar ∘ Prod.fst)) (l.map Prod.snd) := by
        intro l
        rw [zip_map', map_congr_left]
        intro a _; rfl
      have e2 : (zip xs As).map (fun a => (Par.scalar a.1, a.2)) = zip (xs.map Par.scalar) As := by
        rw [zip_map_left]
        rfl
      rw [e1, e2] at h
      exact h

theorem itpData_nodup (c : Option ItpClass) (P : PArr K) (As : List (Mat K))
    (hlen : As.length = P.length) (h : P.toPars.Nodup) : (itpData c P As).2.1.toPars.Nodup := by
  have hz := (itpData_zip c P As hlen).map Prod.fst
  obtain ⟨l1, l2⟩ := itpData_length c P As hlen
  rw [map_fst_zip (by rw [PArr.length_toPars]; omega), map_fst_zip (by rw [PArr.length_toPars]; omega)]
    at hz
  exact hz.nodup_iff.mpr h

/-! ### Construction -/

/-- An operator whose interpolator was constructed from its own training parameters and entries. -/
structure Interp.Settled (lib : ItpLib K) (t : Interp K) (P : PArr K) (As : List (Mat K)) (r m : Nat)
    (c : ItpClass) : Prop where
  params : t.params = some P
  wf : P.WF
  p : t.p = some P.dim
  entries : t.entries = some As
  len : As.length = P.length
  fits : ∀ A ∈ As, t.kind.Fits A r m
  cls : t.cls = some c
  itp : t.itp = some (c, P, As)
  built : lib.build c P As = .ok ()

/-- The operator constructed from training parameters and entries. -/
def interpOf (kind : OpKind) (c : Option ItpClass) (P : PArr K) (As : List (Mat K)) : Interp K :=
  ⟨kind, some P, some P.dim, some As, some (itpData c P As).1, some (itpData c P As)⟩

theorem Interp.start_eq (kind : OpKind) (P : PArr K) (hP : P.WF) (c : Option ItpClass) :
    Interp.start kind (some P.toPars) c = .ok ⟨kind, some P, some P.dim, none, c, none⟩ := by
  simp [Interp.start, Interp.setParams, ofPars_toPars P hP]

theorem Interp.setEntries_eq [Field K] (lib : ItpLib K) (t : Interp K) (P : PArr K)
    (h : t.params = some P) (r m : Nat) (hr : 0 < r) (As : List (Mat K)) (hlen : As.length = P.length)
    (hfit : ∀ A ∈ As, t.kind.Fits A r m) :
    t.setEntries lib (.list As)
      = match lib.build (itpData t.cls P As).1 (itpData t.cls P As).2.1 (itpData t.cls P As).2.2 with
        | .error e => ({ t with entries := some As }, .error e)
        | .ok () => (⟨t.kind, t.params, t.p, some As, some (itpData t.cls P As).1,
            some (itpData t.cls P As)⟩, .ok ()) := by
  simp only [Interp.setEntries, h, parseEntries_list t.kind r m P.length hr As hfit hlen,
    Interp.setInterpolator]
  cases lib.build (itpData t.cls P As).1 (itpData t.cls P As).2.1 (itpData t.cls P As).2.2 <;> rfl

theorem Interp.make_eq [Field K] (lib : ItpLib K) (kind : OpKind) (P : PArr K) (hP : P.WF)
    (c : Option ItpClass) (r m : Nat) (hr : 0 < r) (As : List (Mat K)) (hlen : As.length = P.length)
    (hfit : ∀ A ∈ As, kind.Fits A r m) (ps : List (Par K)) (hps : PArr.ofPars ps = .ok P) :
    Interp.make lib kind (some ps) (some (.list As)) c
      = match lib.build (itpData c P As).1 (itpData c P As).2.1 (itpData c P As).2.2 with
        | .error e => .error e
        | .ok () => .ok (interpOf kind c P As) := by
  have hs : Interp.start kind (some ps) c = .ok ⟨kind, some P, some P.dim, none, c, none⟩ := by
    simp [Interp.start, Interp.setParams, hps]
  rw [Interp.make, hs]
  simp only
  rw [Interp.setEntries_eq lib _ P rfl r m hr As hlen hfit]
  cases hb : lib.build (itpData c P As).1 (itpData c P As).2.1 (itpData c P As).2.2 <;>
    simp [finish, interpOf]

/-- What a successful construction produces. -/
theorem Interp.make_inv [Field K] (lib : ItpLib K) (kind : OpKind) (ps : List (Par K))
    (c : Option ItpClass) (r m : Nat) (hr : 0 < r) (As : List (Mat K))
    (hfit : ∀ A ∈ As, kind.Fits A r m) (t : Interp K)
    (h : Interp.make lib kind (some ps) (some (.list As)) c = .ok t) :
    ∃ P, PArr.ofPars ps = .ok P ∧ P.WF ∧ As.length = P.length ∧ t = interpOf kind c P As ∧
      lib.build (itpData c P As).1 (itpData c P As).2.1 (itpData c P As).2.2 = .ok () := by
  cases hps : PArr.ofPars ps with
  | error e => simp [Interp.make, Interp.start, Interp.setParams, hps] at h
  | ok P =>
    have hP := (ofPars_wf hps).1
    by_cases hlen : As.length = P.length
    · refine ⟨P, rfl, hP, hlen, ?_⟩
      rw [Interp.make_eq lib kind P hP c r m hr As hlen hfit ps hps] at h
      cases hb : lib.build (itpData c P As).1 (itpData c P As).2.1 (itpData c P As).2.2 with
      | error e => rw [hb] at h; simp at h
      | ok u => rw [hb] at h; simp only [Except.ok.injEq] at h; exact ⟨h.symm, rfl⟩
    · exfalso
      have hpe : parseEntries kind P.length (.list As) = .error .value := by
        simp only [parseEntries, bind, Except.bind]
        rw [sameShapes_of (fun A hA' => ⟨(hfit A hA').2.1, (hfit A hA').2.2⟩)]
        simp [hlen, throw, throwThe, MonadExceptOf.throw, pure, Except.pure]
      simp [Interp.make, Interp.start, Interp.setParams, hps, Interp.setEntries, hpe, finish] at h

theorem interpOf_settled (lib : ItpLib K) (kind : OpKind) (c : Option ItpClass) (P : PArr K)
    (hP : P.WF) (r m : Nat) (As : List (Mat K)) (hlen : As.length = P.length)
    (hfit : ∀ A ∈ As, kind.Fits A r m) (hord : c = none → P.Ordered)
    (hb : lib.build (itpData c P As).1 (itpData c P As).2.1 (itpData c P As).2.2 = .ok ()) :
    (interpOf kind c P As).Settled lib P As r m (itpData c P As).1 := by
  have h := itpData_ordered c P As hlen hord
  refine ⟨rfl, hP, rfl, rfl, hlen, hfit, rfl, congrArg some h, ?_⟩
  rw [h] at hb
  exact hb

theorem Interp.Settled.eq {lib : ItpLib K} {t : Interp K} {P : PArr K} {As : List (Mat K)} {r m : Nat}
    {c : ItpClass} (h : t.Settled lib P As r m c) : t = interpOf t.kind (some c) P As := by
  obtain ⟨k, pa, p, e, cl, i⟩ := t
  obtain ⟨h1, h2, h3, h4, h5, h6, h7, h8, h9⟩ := h
  simp only at h1 h3 h4 h7 h8
  subst h1 h3 h4 h7 h8
  rw [interpOf, itpData_some]

theorem Interp.Settled.remake [Field K] {lib : ItpLib K} {t : Interp K} {P : PArr K}
    {As : List (Mat K)} {r m : Nat} {c : ItpClass} (h : t.Settled lib P As r m c) (hr : 0 < r) :
    Interp.make lib t.kind (some P.toPars) (some (.list As)) (some c) = .ok t := by
  rw [Interp.make_eq lib t.kind P h.wf (some c) r m hr As h.len h.fits _ (ofPars_toPars P h.wf),
    itpData_some, h.built]
  exact congrArg _ h.eq.symm

/-! ### C11 -/

/-- **C11 (partial).** An interpolated operator that could be constructed with an explicit interpolator
class, or whose training parameters are vectors or scalars in increasing order, can be copied, and saved
and loaded (without naming the class if it is a `scipy.interpolate` class), giving the identical operator;
its entries can be set again; and it can be projected if its entries can (and the interpolator class does
not reject the projected values), the projection at the training parameters being the projected
entries. What is missing: scalar parameters in any other order, see `C11_unsorted_fails`. -/
theorem C11_survives_partial [Field K] [DecidableEq K] (lib : ItpLib K) (kind : OpKind)
    (ps : List (Par K)) (c : Option ItpClass) (r m : Nat) (hr : 0 < r) (As : List (Mat K))
    (hfit : ∀ A ∈ As, kind.Fits A r m) (t : Interp K)
    (h : Interp.make lib kind (some ps) (some (.list As)) c = .ok t)
    (hord : c ≠ none ∨ ∀ P, t.params = some P → P.Ordered) :
    t.copy lib = .ok t ∧
    ((∀ c ∈ t.cls, c.inScipy = true) → Interp.load lib kind t.save none = .ok t) ∧
    Interp.load lib kind t.save t.cls = .ok t ∧
    t.setEntries lib (.list As) = (t, .ok ()) := by
  obtain ⟨P, hps, hP, hlen, rfl, hb⟩ := Interp.make_inv lib kind ps c r m hr As hfit t h
  have hS := interpOf_settled lib kind c P hP r m As hlen hfit
    (fun hc => (hord.resolve_left (by simp [hc])) P rfl) hb
  have hre := hS.remake hr
  refine ⟨hre, ?_, ?_, ?_⟩
  · intro hsc
    have := hsc (itpData c P As).1 rfl
    rw [Interp.load, if_neg (by simp [Interp.save, interpOf])]
    simp only [Interp.save, interpOf, loadClass, this]
    exact hre
  · rw [Interp.load, if_neg (by simp [Interp.save, interpOf])]
    simp only [Interp.save, interpOf, loadClass]
    exact hre
  · rw [Interp.setEntries_eq lib _ P rfl r m hr As hlen hfit]
    have e : (interpOf kind c P As).cls = some (itpData c P As).1 := rfl
    rw [e, itpData_some]
    simp only
    rw [hS.built]
    have hi := hS.itp
    simp only [interpOf] at hi ⊢
    rw [hi]

/-- **C11 (partial), projection.** Under the same conditions the operator can be projected, and the
projection is again an operator with these properties. -/
theorem C11_galerkin_partial [Field K] [CharZero K] (lib : ItpLib K) (kind : OpKind)
    (ps : List (Par K)) (c : Option ItpClass) (n m r : Nat) (hn : 0 < n) (hr : 0 < r) (As : List (Mat K))
    (hfit : ∀ A ∈ As, kind.Fits A n m) (t : Interp K)
    (h : Interp.make lib kind (some ps) (some (.list As)) c = .ok t)
    (hord : c ≠ none ∨ ∀ P, t.params = some P → P.Ordered)
    (solve : List (List K) → Mat K → Except Err (Mat K)) (V W : List (List K))
    (hV : V.length = n) (hVr : ∀ row ∈ V, row.length = r) (hW : W.length = n)
    (hsolve : gram r W V ≠ eye r → SolvesExactly solve (gram r W V) r)
    (hvals : ∀ c ∈ t.cls, ∀ P Bs Cs, Bs.length = Cs.length → lib.build c P Bs = lib.build c P Cs) :
    ∃ b Bs, t.galerkin lib solve r r V W = .ok b ∧ b.params = t.params ∧ b.cls = t.cls ∧
      b.entries = some Bs ∧
      Forall₂ (fun A B => kind.galerkin solve A r r V W = .ok B ∧ kind.Fits B r m) As Bs ∧
      b.copy lib = .ok b := by
  obtain ⟨P, hps, hP, hlen, rfl, hb⟩ := Interp.make_inv lib kind ps c n m hn As hfit t h
  have hS := interpOf_settled lib kind c P hP n m As hlen hfit
    (fun hc => (hord.resolve_left (by simp [hc])) P rfl) hb
  have hex : ∀ A ∈ As, ∃ F, kind.galerkin solve A r r V W = .ok F := fun A hA => by
    obtain ⟨F, h1, -⟩ := galerkin_rows solve kind A n m r hn hr (hfit A hA) V W hV hVr hW hsolve
    exact ⟨F, h1⟩
  obtain ⟨Bs, hBs⟩ := mapM_exists_ok.mpr hex
  have hF2 := mapM_ok_forall2.mp hBs
  have hall : Forall₂ (fun A B => kind.galerkin solve A r r V W = .ok B ∧ kind.Fits B r m) As Bs := by
    have : ∀ A ∈ As, ∀ B, kind.galerkin solve A r r V W = .ok B → kind.Fits B r m := by
      intro A hA B hB
      obtain ⟨F, h1, h2, -⟩ := galerkin_rows solve kind A n m r hn hr (hfit A hA) V W hV hVr hW hsolve
      rw [h1] at hB; cases hB; exact h2
    clear hBs hex hfit hlen h hb hS hord hvals
    induction hF2 with
    | nil => exact .nil
    | cons hd tl ih =>
      exact .cons ⟨hd, this _ (by simp) _ hd⟩ (ih fun A hA => this A (by simp [hA]))
  have hfitB : ∀ B ∈ Bs, kind.Fits B r m := by
    clear hBs hex hfit hlen h hb hS hord hF2 hvals
    induction hall with
    | nil => simp
    | cons hd tl ih =>
      intro B hB
      rcases mem_cons.mp hB with rfl | hB
      · exact hd.2
      · exact ih B hB
  have hlB : Bs.length = P.length := hall.length_eq.symm.trans hlen
  have hbB : lib.build (itpData c P As).1 P Bs = .ok () := by
    rw [← hS.built]
    exact hvals _ rfl P Bs As hall.length_eq.symm
  have hSB := interpOf_settled lib kind (some (itpData c P As).1) P hP r m Bs hlB hfitB (by simp)
    (by rw [itpData_some]; exact hbB)
  refine ⟨interpOf kind (some (itpData c P As).1) P Bs, Bs, ?_, rfl, ?_, rfl, hall, hSB.remake hr⟩
  · simp only [Interp.galerkin, interpOf, hBs, Option.map_some]
    rw [Interp.make_eq lib kind P hP _ r m hr Bs hlB hfitB _ (ofPars_toPars P hP), itpData_some]
    simp only [hbB]
    rw [interpOf, itpData_some]
  · simp only [interpOf, itpData_some]

/-- **C11 (false of the code).** Scalar training parameters in any order are accepted by the constructor
with the default interpolator class, as long as they are distinct and at least two. -/
theorem C11_unsorted_constructed [Field K] (lib : ItpLib K) (hlib : lib.Contract) (kind : OpKind)
    (xs : List K) (h2 : 2 ≤ xs.length) (hnd : xs.Nodup) (r m : Nat) (hr : 0 < r) (As : List (Mat K))
    (hlen : As.length = xs.length) (hfit : ∀ A ∈ As, kind.Fits A r m) :
    ∃ t, Interp.make lib kind (some (xs.map .scalar)) (some (.list As)) none = .ok t ∧
      t.params = some (.one xs) := by
  have hP : (PArr.one xs).WF := ⟨by simp only [PArr.length]; omega, trivial⟩
  have hperm := (sortPairs_perm xs As).map Prod.fst
  rw [map_fst_zip (by omega)] at hperm
  have hlt : ((sortPairs xs As).map Prod.fst).Pairwise (· < ·) := by
    have h1 := sortPairs_sorted xs As
    have h3 : ((sortPairs xs As).map Prod.fst).Pairwise (· ≠ ·) := hperm.nodup_iff.mpr hnd
    exact (h1.and h3).imp fun h => lt_of_le_of_ne h.1 h.2
  have hb : lib.build .cubic (.one ((sortPairs xs As).map Prod.fst)) ((sortPairs xs As).map Prod.snd)
      = .ok () := by
    apply hlib.cubic_ok _ _ (by rw [hperm.length_eq]; exact h2) hlt
    simp
  refine ⟨interpOf kind none (.one xs) As, ?_, rfl⟩
  change Interp.make lib kind (some (PArr.one xs).toPars) _ none = _
  rw [Interp.make_eq lib kind (.one xs) hP none r m hr As hlen hfit _ (ofPars_toPars (.one xs) hP)]
  simp only [itpData, hb]

/-- **C11 (false of the code).** But whenever scalar training parameters are not in increasing order, the
operator constructed that way cannot be copied, loaded after saving, or projected, and its entries cannot
be set again: all raise `ValueError`. The last failure also leaves the new entries behind with the
old interpolator, so that `evaluate` keeps returning the values of the old entries. -/
theorem C11_unsorted_fails [Field K] (lib : ItpLib K) (hlib : lib.Contract) (kind : OpKind)
    (ps : List (Par K)) (r m : Nat) (hr : 0 < r) (As : List (Mat K))
    (hfit : ∀ A ∈ As, kind.Fits A r m) (t : Interp K)
    (h : Interp.make lib kind (some ps) (some (.list As)) none = .ok t)
    (xs : List K) (hxs : t.params = some (.one xs)) (hun : ¬ xs.Pairwise (· ≤ ·)) :
    t.copy lib = .error .value ∧
    Interp.load lib kind t.save none = .error .value ∧
    (∀ solve V W rV r' m' Bs, 0 < r' → As.mapM (fun A => kind.galerkin solve A rV r' V W) = .ok Bs →
      (∀ B ∈ Bs, kind.Fits B r' m') → t.galerkin lib solve rV r' V W = .error .value) ∧
    (∀ Bs, Bs.length = As.length → (∀ B ∈ Bs, kind.Fits B r m) →
      t.setEntries lib (.list Bs) = ({ t with entries := some Bs }, .error .value) ∧
      ∀ mu, (t.setEntries lib (.list Bs)).1.evaluate lib mu = t.evaluate lib mu) := by
  obtain ⟨P, hps, hP, hlen, rfl, hb⟩ := Interp.make_inv lib kind ps none r m hr As hfit t h
  have hPx : P = .one xs := by simpa [interpOf] using hxs
  subst hPx
  have hnlt : ¬ xs.Pairwise (· < ·) := fun hlt => hun (hlt.imp le_of_lt)
  have hbad : ∀ (r' m' : Nat), 0 < r' → ∀ Bs, Bs.length = (PArr.one xs).length →
      (∀ B ∈ Bs, kind.Fits B r' m') →
      Interp.make lib kind (some (PArr.one xs).toPars) (some (.list Bs)) (some .cubic)
        = .error .value := by
    intro r' m' hr' Bs hl hf
    rw [Interp.make_eq lib kind _ hP (some .cubic) r' m' hr' Bs hl hf _ (ofPars_toPars _ hP), itpData_some]
    simp only [hlib.cubic_order xs Bs hnlt]
  refine ⟨hbad r m hr As hlen hfit, ?_, ?_, ?_⟩
  · rw [Interp.load, if_neg (by simp [Interp.save, interpOf])]
    simp only [Interp.save, interpOf, itpData, loadClass, ItpClass.inScipy]
    exact hbad r m hr As hlen hfit
  · intro solve V W rV r' m' Bs hr' hBs hf
    simp only [Interp.galerkin, interpOf, hBs, Option.map_some]
    exact hbad r' m' hr' Bs ((mapM_ok_length hBs).trans hlen) hf
  · intro Bs hl hf
    have key : (interpOf kind none (.one xs) As).setEntries lib (.list Bs)
        = ({ interpOf kind none (.one xs) As with entries := some Bs }, .error .value) := by
      rw [Interp.setEntries_eq lib _ (.one xs) rfl r m hr Bs (hl.trans hlen) hf]
      have e : (interpOf kind none (.one xs) As).cls = some .cubic := rfl
      rw [e, itpData_some]
      simp only [hlib.cubic_order xs Bs hnlt]
      rfl
    refine ⟨key, fun mu => ?_⟩
    rw [key]
    rfl

/-! ### C12 -/

/-- At a training parameter, an operator whose class interpolates evaluates to its entries there. -/
theorem Interp.evaluate_node [Field K] (lib : ItpLib K) (kind : OpKind) (c : Option ItpClass)
    (P : PArr K) (hP : P.WF) (r m : Nat) (hr : 0 < r) (As : List (Mat K)) (hlen : As.length = P.length)
    (hfit : ∀ A ∈ As, kind.Fits A r m)
    (hb : lib.build (itpData c P As).1 (itpData c P As).2.1 (itpData c P As).2.2 = .ok ())
    (hint : Interpolates lib (itpData c P As).1) (hnd : P.toPars.Nodup) (mu : Par K) (A : Mat K)
    (hmem : (mu, A) ∈ zip P.toPars As) :
    (interpOf kind c P As).evaluate lib mu = .ok ⟨kind, some A⟩ := by
  obtain ⟨l1, l2⟩ := itpData_length c P As hlen
  have hev := hint _ _ hb (itpData_nodup c P As hlen hnd) (by omega) mu A
    ((itpData_zip c P As hlen).mem_iff.mpr hmem)
  obtain ⟨m1, m2⟩ := of_mem_zip hmem
  have hun : (interpOf kind c P As).unwrap mu = mu ∧ mu.dim = P.dim := by
    cases P with
    | one xs =>
      obtain ⟨x, -, rfl⟩ := mem_map.mp m1
      exact ⟨rfl, rfl⟩
    | two p rows =>
      obtain ⟨x, hx, rfl⟩ := mem_map.mp m1
      obtain ⟨-, hp, hrow⟩ := hP
      refine ⟨?_, hrow x hx⟩
      simp only [Interp.unwrap, interpOf, PArr.dim]
      split
      · next h _ => exact absurd (Option.some.inj h) hp
      · rfl
  have e : (interpOf kind c P As).itp
      = some ((itpData c P As).1, (itpData c P As).2.1, (itpData c P As).2.2) := rfl
  unfold Interp.evaluate
  rw [e, hun.1]
  simp only [interpOf]
  rw [if_neg (by simp [hun.2]), hev]
  simp only
  rw [setEntries_fits kind A r m hr (hfit A m2)]

omit [LinearOrder K] in
theorem dot_pad [CommSemiring K] (row c : List K) (k d j : Nat) (hc : c.length = d)
    (hrow : k + d ≤ row.length) :
    dot row (replicate k 0 ++ c ++ replicate j 0) = dot ((row.drop k).take d) c := by
  have hz : ∀ (xs : List K) n, dot xs (replicate n 0) = 0 := by
    intro xs
    induction xs with
    | nil => intro n; simp [dot]
    | cons x xs ih =>
      intro n
      cases n with
      | zero => simp [dot]
      | succ n =>
        have := ih n
        simp only [dot] at this ⊢
        simp [replicate_succ, this]
  have h1 : row = row.take k ++ ((row.drop k).take d ++ (row.drop k).drop d) := by simp
  conv_lhs => rw [h1, append_assoc]
  rw [dot_append _ _ _ _ (by simp; omega), dot_append _ _ _ _ (by simp; omega), hz, hz]
  ring

omit [LinearOrder K] in
theorem matVec_pad [CommSemiring K] (B : Mat K) (hB : B.WF) (d s i : Nat) (hi : i < s)
    (hBc : B.ncols = s * d) (c : List K) (hc : c.length = d) :
    matVec B.rows (replicate (i * d) 0 ++ c ++ replicate ((s - 1 - i) * d) 0)
      = matVec (blockAt B d i).rows c := by
  simp only [matVec, blockAt, map_map]
  apply map_congr_left
  intro row hrow
  rw [Function.comp_apply, dot_pad row c _ d _ hc]
  rw [hB.2 row hrow, hBc, ← Nat.succ_mul]
  exact Nat.mul_le_mul_right _ hi

omit [LinearOrder K] in
theorem dataSamples_flatten {α β γ : Type} (data : List (α × List β × Option (List γ))) :
    dataSamples data = (data.map fun x => dataSamples [x]).flatten := by
  induction data with
  | nil => rfl
  | cons x data ih => rw [samples_cons x data, ih, map_cons, flatten_cons]

omit [LinearOrder K] in
theorem mem_samples_one [CommSemiring K] {o : OpKind} {r m : Nat} {α : Type}
    {x : α × List (List K) × Option (List (List K))} (h : DataOK o r m [x])
    {y : α × List K × Option (List K)} (hy : y ∈ dataSamples [x]) :
    y.1 = x.1 ∧ (y.2.1.length = r ∧ InputOK o m y.2.2) ∧
      (o.dataCol y.2.1 (y.2.2.getD [])).length = o.dim r m := by
  obtain ⟨h1, h2, h3, z, hz, h4⟩ := mem_samples h hy
  have hzx : z = x := by simpa using hz
  subst hzx
  refine ⟨h4.symm, ⟨h1, h2⟩, ?_⟩
  rw [dataCol_length, h1]
  by_cases hi : o.hasInputs = true
  · obtain ⟨v, hv, hvl⟩ := h2 hi
    rw [hv, Option.getD_some, hvl]
  · exact dim_ignores_input o (by simpa using hi) _ _ _

/-- **C12.** Let `B` be the operator matrix learned for an interpolated operator with `s` training
parameters (one block of columns per parameter), and suppose it is accepted. Then multiplying `B` with the
column of the data block that belongs to a snapshot at the training parameter `mu_i` gives exactly the
operator evaluated at `mu_i` and applied to that snapshot; the entries are the blocks of `B` in the order
of the parameters. This holds for parameters in any order, for the default classes and for every class
that interpolates. -/
theorem C12_block [Field K] (lib : ItpLib K) (t : Interp K) (P : PArr K) (hP : P.WF)
    (hpar : t.params = some P) (hp : t.p = some P.dim) (hnd : P.toPars.Nodup) (r m : Nat) (hr : 0 < r)
    (B : Mat K) (hB : B.WF) (hBr : B.nrows = r) (hBc : B.ncols = interpDim t.kind P.length r m)
    (t' : Interp K) (hset : t.setEntries lib (.block B) = (t', .ok ()))
    (hint : ∀ c ∈ t'.cls, Interpolates lib c)
    (data : List (Par K × List (List K) × Option (List (List K)))) (hdata : DataOK t.kind r m data)
    (hmus : data.map Prod.fst = P.toPars) :
    t'.entries = some ((range P.length).map (blockAt B (t.kind.dim r m))) ∧
    Forall₂ (fun col y => col.length = interpDim t.kind P.length r m ∧
        Yields (t'.apply lib y.1 (.vec y.2.1) (y.2.2.map .vec)) (matVec B.rows col))
      (interpBlock t.kind r m data) (dataSamples data) := by
  have hs : 0 < P.length := hP.1
  have hlenD : data.length = P.length := by rw [← PArr.length_toPars, ← hmus, length_map]
  set As := (range P.length).map (blockAt B (t.kind.dim r m)) with hAs
  have hparse : parseEntries t.kind P.length (.block B) = .ok As :=
    parseEntries_block t.kind r m P.length hr hs B hB hBr hBc
  have hfit : ∀ A ∈ As, t.kind.Fits A r m := by
    intro A hA
    obtain ⟨i, hi, rfl⟩ := mem_map.mp hA
    exact blockAt_fits hB hBr hBc (mem_range.mp hi)
  have hlA : As.length = P.length := by simp [hAs]
  have hset2 : t.setEntries lib (.list As) = (t', .ok ()) := by
    rw [← hset]
    simp only [Interp.setEntries, hpar, hparse, parseEntries_list t.kind r m P.length hr As hfit hlA]
  rw [Interp.setEntries_eq lib t P hpar r m hr As hlA hfit] at hset2
  cases hb : lib.build (itpData t.cls P As).1 (itpData t.cls P As).2.1 (itpData t.cls P As).2.2 with
  | error e => rw [hb] at hset2; simp at hset2
  | ok u =>
    rw [hb] at hset2
    simp only [Prod.mk.injEq, and_true, hpar, hp] at hset2
    have ht' : t' = interpOf t.kind t.cls P As := hset2.symm
    subst ht'
    refine ⟨rfl, ?_⟩
    have hi := hint _ rfl
    rw [dataSamples_flatten, interpBlock, hlenD]
    apply rel_flatten
    rw [forall₂_iff_get]
    refine ⟨by simp, ?_⟩
    intro i h1 h2
    have hiD : i < data.length := by simpa using h2
    have hiP : i < P.length := by omega
    simp only [get_eq_getElem, getElem_mapIdx, getElem_map]
    have hx := hdata data[i] (getElem_mem _)
    rw [block_samples hx, padBlock, map_map]
    have hmu : data[i].1 = P.toPars[i]'(by rw [PArr.length_toPars]; exact hiP) := by
      simp only [← hmus, getElem_map]
    have hAi : (P.toPars[i]'(by rw [PArr.length_toPars]; exact hiP),
        blockAt B (t.kind.dim r m) i) ∈ zip P.toPars As := by
      rw [mem_iff_getElem]
      refine ⟨i, by simp [PArr.length_toPars, hlA, hiP], ?_⟩
      simp [hAs]
    have hev := Interp.evaluate_node lib t.kind t.cls P hP r m hr As hlA hfit hb hi hnd _ _ hAi
    rw [forall₂_map_left_iff, forall₂_same]
    intro y hy
    obtain ⟨hy1, hy2, hy3⟩ := mem_samples_one (o := t.kind) (by intro z hz; rw [mem_singleton.mp hz]; exact hx) hy
    have hdl : (t.kind.dataCol y.2.1 (y.2.2.getD [])).length = t.kind.dim r m := hy3
    refine ⟨?_, ?_⟩
    · simp only [Function.comp_apply, length_append, length_replicate, hdl, interpDim]
      rw [← Nat.succ_mul, ← Nat.add_mul]
      congr 1
      omega
    · rw [Function.comp_apply, matVec_pad B hB _ _ i hiP hBc _ hdl, hy1, hmu]
      unfold Interp.apply
      rw [hev]
      obtain ⟨a, ha1, ha2, ha3⟩ := Op.apply_vec (o := ⟨t.kind, some (blockAt B (t.kind.dim r m) i)⟩)
        ⟨_, rfl, blockAt_fits hB hBr hBc hiP⟩ y.2.1 y.2.2 hy2.1 hy2.2
      exact ⟨a, ha1, ha2, ha3⟩

end

/-! ### The hypotheses are satisfiable -/

/-- A toy library that meets the contract: it looks the value up. -/
def toyLib : ItpLib ℚ where
  build c P _ := match c, P with
    | .cubic, .one xs => if 2 ≤ xs.length ∧ xs.Pairwise (· < ·) then .ok () else .error .value
    | .cubic, .two _ _ => .error .value
    | _, _ => .ok ()
  eval _ P As mu := match (zip P.toPars As).find? fun x => decide (x.1 = mu) with
    | some x => .ok x.2
    | none => .ok ⟨1, 1, [[0]]⟩

theorem toy_node (c : ItpClass) : Interpolates toyLib c := by
  intro P As _ hnd hlen mu A hmem
  have key : ∀ l : List (Par ℚ × Mat ℚ), (l.map Prod.fst).Nodup → (mu, A) ∈ l →
      l.find? (fun x => decide (x.1 = mu)) = some (mu, A) := by
    intro l
    induction l with
    | nil => simp
    | cons x l ih =>
      intro h1 h2
      simp only [map_cons, nodup_cons] at h1
      rcases mem_cons.mp h2 with rfl | h2
      · simp
      · have : x.1 ≠ mu := by
          intro h; exact h1.1 (mem_map.mpr ⟨_, h2, h.symm⟩)
        rw [find?_cons_of_neg (by simpa using this)]
        exact ih h1.2 h2
  simp only [toyLib]
  rw [key _ (by rwa [map_fst_zip (by rw [PArr.length_toPars]; omega)]) hmem]

example : toyLib.Contract where
  cubic_ok xs As h1 h2 _ := by simp [toyLib, h1, h2]
  cubic_order xs As h := by simp [toyLib, h]
  cubic_few xs As h := by simp [toyLib]; omega
  cubic_node := toy_node _
  linear_node := toy_node _
  cubic_values P As Bs _ := by cases P <;> rfl
  linear_values P As Bs _ := by cases P <;> rfl

/-- An operator constructed at the training parameters 3, 1, 2. -/
def itpEx : Except Err (Interp ℚ) :=
  Interp.make toyLib .lin (some [.scalar 3, .vec [1], .scalar 2])
    (some (.list [⟨1, 1, [[30]]⟩, ⟨1, 1, [[10]]⟩, ⟨1, 1, [[20]]⟩])) none

/-- The same with parameters of a consistent shape. -/
def itpEx' : Except Err (Interp ℚ) :=
  Interp.make toyLib .lin (some [.vec [3], .vec [1], .vec [2]])
    (some (.list [⟨1, 1, [[30]]⟩, ⟨1, 1, [[10]]⟩, ⟨1, 1, [[20]]⟩])) none

example : itpEx = .error .value := by decide +kernel

/-- **C11 (concrete witness).** Three unsorted parameters: the operator evaluates correctly, but copying,
loading, projecting and setting the entries again raise `ValueError`. -/
theorem C11_witness :
    (itpEx'.bind fun t => t.evaluate toyLib (.scalar 1)) = .ok ⟨.lin, some ⟨1, 1, [[10]]⟩⟩ ∧
    (itpEx'.bind fun t => t.evaluate toyLib (.vec [3])) = .ok ⟨.lin, some ⟨1, 1, [[30]]⟩⟩ ∧
    (itpEx'.bind fun t => t.copy toyLib) = .error .value ∧
    (itpEx'.bind fun t => Interp.load toyLib .lin t.save none) = .error .value ∧
    (itpEx'.bind fun t => t.galerkin toyLib (fun _ _ => .error .linalg) 1 1 [[1]] [[1]])
      = .error .value ∧
    (itpEx'.bind fun t => finish (t.setEntries toyLib (.list [⟨1, 1, [[3]]⟩, ⟨1, 1, [[1]]⟩, ⟨1, 1, [[2]]⟩])))
      = .error .value := by decide +kernel

-- sorted parameters, where everything works
example : (Interp.make toyLib .lin (some [.vec [1], .vec [2], .vec [3]])
    (some (.list [⟨1, 1, [[10]]⟩, ⟨1, 1, [[20]]⟩, ⟨1, 1, [[30]]⟩])) none).bind
      (fun t => (t.copy toyLib).bind fun t' => .ok (decide (t' = t))) = (.ok true : Except Err Bool) := by
  decide +kernel

-- the data block of two parameters with one and two snapshots
example : interpBlock (K := ℚ) .lin 2 0 [(.scalar 5, [[1, 2]], none), (.scalar 4, [[3, 4], [5, 6]], none)]
    = [[1, 2, 0, 0], [0, 0, 3, 4], [0, 0, 5, 6]] := by decide +kernel
example : (PArr.one [5, 4] : PArr ℚ).WF ∧ (PArr.one [5, 4] : PArr ℚ).toPars.Nodup :=
  ⟨⟨by decide, trivial⟩, by decide +kernel⟩
example : (Interp.make toyLib .lin (some [.scalar 5, .scalar 4]) none none).bind (fun t =>
    (finish (t.setEntries toyLib (.block ⟨2, 4, [[1, 0, 2, 0], [0, 1, 3, 3]]⟩))).bind fun t' =>
      t'.apply toyLib (.scalar 4) (.vec [5, 6]) none) = .ok (.vec [10, 33]) := by decide +kernel

end Opinf
