import Verif.Model.ParamGalerkin
import Verif.Props.GalerkinCompose
import Verif.Props.ParamMade
import Verif.Lemmas.InterpModelIO

/-!
# C121: Galerkin projection of a parametric model commutes with evaluation

Projecting a parametric model and evaluating the result at a parameter value gives the model obtained by
evaluating first and projecting then.
-/

namespace Opinf

open List

variable {K S : Type}

/-! ### Specification -/

/-- At `mu` the interpolators of class `c` with the training parameters `P` return a combination of the
arrays they are given, with weights that depend on `c`, `P` and `mu` only (or always raise the same). -/
def ItpLib.LinearAt [Semiring K] (lib : ItpLib K) (c : ItpClass) (P : PArr K) (mu : Par K) : Prop :=
  ∃ x : Except Err (List K), (∀ w, x = .ok w → w.length = P.length) ∧
    ∀ Bs : List (Mat K), Bs.length = P.length →
      (∃ n k, ∀ B ∈ Bs, B.WF ∧ B.nrows = n ∧ B.ncols = k) →
      lib.eval c P Bs mu = x.map fun w => weightedSum w Bs

/-- Whether an interpolator can be constructed does not depend on the values. -/
def ItpLib.Indifferent (lib : ItpLib K) (c : ItpClass) (P : PArr K) : Prop :=
  ∀ Bs Cs, Bs.length = Cs.length → lib.build c P Bs = lib.build c P Cs

/-- An operator with all its entries, for states in `K^n` and inputs in `K^m`. -/
def POp.Complete (lib : ItpLib K) (n m : Nat) : POp K → Prop
  | .np o => o.Cal n m
  | .aff a => ∃ As, a.Holds As n m
  | .itp t => ∃ P As c, t.Settled lib P As n m c ∧ lib.Indifferent c P

/-- At `mu` the coefficient function returns one number for every term and interpolation is linear. -/
def POp.Regular [Semiring K] (lib : ItpLib K) (mu : Par K) : POp K → Prop
  | .np _ => True
  | .aff a => ∃ th, a.Coefs mu th
  | .itp t => ∀ P c, t.params = some P → t.cls = some c → lib.LinearAt c P (t.unwrap mu)

section

variable [Field K] [CharZero K] [LinearOrder K] (solve : List (List K) → Mat K → Except Err (Mat K))

/-! ### Combinations of arrays -/

/-- Projecting a combination of arrays is combining the projected arrays. -/
theorem galerkin_weighted (o : OpKind) (As Bs : List (Mat K)) (th : List K) (n m r : Nat) (hn : 0 < n)
    (hr : 0 < r) (hfit : ∀ A ∈ As, o.Fits A n m) (V W : List (List K)) (hV : IsMat n r V)
    (hW : W.length = n) (hs : SolvesGram solve r V W) (hne : th ≠ []) (hA : As ≠ [])
    (hB : Forall₂ (fun A B => o.galerkin solve A r r V W = .ok B) As Bs) :
    o.galerkin solve (weightedSum th As) r r V W = .ok (weightedSum th Bs) ∧
      o.Fits (weightedSum th Bs) r m := by
  obtain ⟨hF, hv⟩ := weightedSum_spec (o := o) (r := n) (m := m) th As hfit hne hA
  obtain ⟨F, g1, g2, g3, g4⟩ := galerkin_iff solve o (weightedSum th As) n m r hn hr hF V W hV hW hs
  have hBs : ∀ B ∈ Bs, o.Fits B r m := by
    intro B hB'
    obtain ⟨A, hA', e⟩ := forall₂_mem_right hB hB'
    obtain ⟨F', e1, e2, -⟩ := galerkin_iff solve o A n m r hn hr (hfit A hA') V W hV hW hs
    rw [e] at e1
    cases e1
    exact e2
  have hBne : Bs ≠ [] := by
    intro h
    rw [h] at hB
    cases hB
    exact hA rfl
  obtain ⟨hFB, hvB⟩ := weightedSum_spec (o := o) (r := r) (m := m) th Bs hBs hne hBne
  have key := g4 (weightedSum th Bs) hFB ?_
  · rw [key]
    exact ⟨g1, g2⟩
  intro q u hq hu
  have gl : (gram r W V).length = r := by simp [gram, matMul, transpose]
  have tl : (transpose r W).length = r := by simp [transpose]
  simp only [OpKind.value]
  rw [hvB, hv, matVec_linComb r, matVec_linComb n, gl, tl, map_map, map_map]
  · congr 1
    clear hFB hvB hBs hBne hF hv g1 g2 g3 g4 hA
    induction hB with
    | nil => rfl
    | cons h _ ih =>
      rename_i A B As Bs _
      obtain ⟨F', e1, -, e3, -⟩ := galerkin_iff solve o A n m r hn hr (hfit A mem_cons_self) V W hV hW hs
      rw [h] at e1
      cases e1
      rw [map_cons, map_cons, ih fun A hA => hfit A (mem_cons_of_mem _ hA)]
      exact congrArg (· :: _) (e3 q u hq hu)
  · intro y hy
    obtain ⟨A, hA', rfl⟩ := mem_map.1 hy
    rw [length_matVec, (hfit A hA').1.1, (hfit A hA').2.1]
  · intro y hy
    obtain ⟨A, hA', rfl⟩ := mem_map.1 hy
    rw [length_matVec, (hBs A hA').1.1, (hBs A hA').2.1]

/-- All arrays of a list can be projected. -/
theorem galerkin_all (o : OpKind) (As : List (Mat K)) (n m r : Nat) (hn : 0 < n) (hr : 0 < r)
    (hfit : ∀ A ∈ As, o.Fits A n m) (V W : List (List K)) (hV : IsMat n r V) (hW : W.length = n)
    (hs : SolvesGram solve r V W) :
    ∃ Bs, As.mapM (fun A => o.galerkin solve A r r V W) = .ok Bs ∧ Bs.length = As.length ∧
      Forall₂ (fun A B => o.galerkin solve A r r V W = .ok B) As Bs ∧ ∀ B ∈ Bs, o.Fits B r m := by
  obtain ⟨Bs, h1, h2⟩ := mapM_ok_forall₂ (fun A => o.galerkin solve A r r V W)
    (fun A B => o.galerkin solve A r r V W = .ok B ∧ o.Fits B r m) As fun A hA => by
      obtain ⟨F, e1, e2, -⟩ := galerkin_iff solve o A n m r hn hr (hfit A hA) V W hV hW hs
      exact ⟨F, e1, e1, e2⟩
  refine ⟨Bs, h1, h2.length_eq.symm, h2.imp fun _ _ h => h.1, fun B hB => ?_⟩
  obtain ⟨A, -, h⟩ := forall₂_mem_right h2 hB
  exact h.2

/-! ### One operator -/

/-- Projection and evaluation of one operator commute. The projected operator may be given a parameter
dimension in between. -/
theorem project_op (lib : ItpLib K) (o : POp K) (n m r : Nat) (hn : 0 < n) (hr : 0 < r)
    (ho : o.Complete lib n m) (V W : List (List K)) (hV : IsMat n r V) (hW : W.length = n)
    (hs : SolvesGram solve r V W) :
    ∃ b, o.project lib solve r r V W = .ok b ∧ b.Complete lib r m ∧ b.kind = o.kind ∧
      (b.isParam = o.isParam) ∧ (∀ d, b.paramDim = some d → o.paramDim = some d) ∧
      ∀ mu op, o.Regular lib mu → (o.evaluate lib mu).2 = .ok op →
        op.Cal n m ∧ op.kind = o.kind ∧ ∃ op', projectOp solve r V W op = .ok op' ∧ op'.Cal r m ∧
          op'.kind = o.kind ∧
          ∀ p b', Synced p b b' → (p = none ∨ p = some mu.dim) → (b'.evaluate lib mu).2 = .ok op' := by
  cases o with
  | np o =>
    obtain ⟨E, hE, hF⟩ := ho
    obtain ⟨F, e1, e2, -⟩ := galerkin_iff solve o.kind E n m r hn hr hF V W hV hW hs
    refine ⟨.np ⟨o.kind, some F⟩, ?_, ⟨F, rfl, e2⟩, rfl, rfl, fun d h => h, ?_⟩
    · simp only [POp.project, hE, e1]
      rfl
    · intro mu op _ h
      cases h
      refine ⟨⟨E, hE, hF⟩, rfl, ⟨o.kind, some F⟩, projectOp_some solve hE e1, ⟨F, rfl, e2⟩, rfl, ?_⟩
      intro p b' hb _
      cases hb
      rfl
  | aff a =>
    obtain ⟨As, h⟩ := ho
    obtain ⟨Bs, hB, hl, h2, hBf⟩ := galerkin_all solve a.kind As n m r hn hr h.fits V W hV hW hs
    have hpos := h.pos
    have hgal : a.galerkin solve r r V W = .ok ⟨a.kind, a.nterms, a.coeffs, none, some Bs⟩ := by
      simp only [Affine.galerkin, h.entries, hB, Affine.make, Affine.start]
      rw [if_neg (by simp; omega)]
      simp only [Affine.setEntries, Int.toNat_natCast]
      rw [parseEntries_list a.kind r m a.nterms hr Bs hBf (hl.trans h.count)]
    have hHold : (⟨a.kind, a.nterms, a.coeffs, none, some Bs⟩ : Affine K).Holds Bs r m :=
      ⟨rfl, hl.trans h.count, hpos, hBf⟩
    refine ⟨.aff ⟨a.kind, a.nterms, a.coeffs, none, some Bs⟩, ?_, ⟨Bs, hHold⟩, rfl, rfl,
      (fun d h => by cases h), ?_⟩
    · simp only [POp.project, h.entries, hgal]
      rfl
    · rintro mu op ⟨th, hth, hlen⟩ hev
      have hne : th ≠ [] := by
        intro h0
        rw [h0] at hlen
        simp at hlen
        omega
      have hA : As ≠ [] := by
        intro h0
        have := h.count
        rw [h0] at this
        simp at this
        omega
      have hmu : a.Accepts mu := by
        simp only [POp.evaluate, Affine.evaluate, h.entries] at hev
        cases hp : a.p with
        | none => exact Or.inl hp
        | some d =>
          refine Or.inr ?_
          by_contra hc
          have hl : a.learnDim mu = a := by simp [Affine.learnDim, hp]
          rw [hl, if_pos (fun e => hc (by rw [hp] at e; rw [hp]; exact e.symm))] at hev
          cases hev
      have e := a.evaluate_eq As n m hn h mu hmu th hth hne
      simp only [POp.evaluate, e, Except.ok.injEq] at hev
      subst hev
      obtain ⟨g1, g2⟩ := galerkin_weighted solve a.kind As Bs th n m r hn hr h.fits V W hV hW hs hne hA h2
      refine ⟨⟨_, rfl, (weightedSum_spec (o := a.kind) (r := n) (m := m) th As h.fits hne hA).1⟩, rfl,
        ⟨a.kind, some (weightedSum th Bs)⟩, projectOp_some solve rfl g1, ⟨_, rfl, g2⟩, rfl, ?_⟩
      intro p b' hb hp
      have main : ∀ q : Option Nat, (q = none ∨ q = some mu.dim) →
          ((⟨a.kind, a.nterms, a.coeffs, q, some Bs⟩ : Affine K).evaluate mu).2
            = .ok ⟨a.kind, some (weightedSum th Bs)⟩ := by
        intro q hq
        rw [Affine.evaluate_eq (⟨a.kind, a.nterms, a.coeffs, q, some Bs⟩ : Affine K) Bs r m hr
          ⟨rfl, hl.trans h.count, hpos, hBf⟩ mu hq th hth hne]
      cases hb with
      | same _ hsame => exact main none (Or.inl rfl)
      | aff _ _ => exact main p hp
  | itp t =>
    obtain ⟨P, As, c, h, hind⟩ := ho
    obtain ⟨Bs, hB, hl, h2, hBf⟩ := galerkin_all solve t.kind As n m r hn hr h.fits V W hV hW hs
    have hbB : lib.build c P Bs = .ok () := (hind Bs As hl).trans h.built
    have hSB := interpOf_settled lib t.kind (some c) P h.wf r m Bs (hl.trans h.len) hBf (by simp)
      (by rw [itpData_some]; exact hbB)
    have hgal : t.galerkin lib solve r r V W = .ok (interpOf t.kind (some c) P Bs) := by
      simp only [Interp.galerkin, h.entries, h.params, h.cls, hB, Option.map_some]
      rw [Interp.make_eq lib t.kind P h.wf _ r m hr Bs (hl.trans h.len) hBf _ (ofPars_toPars P h.wf),
        itpData_some]
      simp only [hbB]
    rw [itpData_some] at hSB
    refine ⟨.itp (interpOf t.kind (some c) P Bs), ?_, ⟨P, Bs, c, hSB, hind⟩, rfl, rfl,
      (fun d hd => by rw [POp.paramDim, h.p]; exact hd), ?_⟩
    · simp only [POp.project, h.entries, hgal]
      rfl
    · intro mu op hreg hev
      obtain ⟨x, hx1, hx2⟩ := hreg P c h.params h.cls
      have hlenA : 0 < P.length := h.wf.1
      have hA : As ≠ [] := by
        intro h0
        have := h.len
        rw [h0] at this
        simp at this
        omega
      have shape : ∀ (Cs : List (Mat K)) (k : Nat), (∀ C ∈ Cs, t.kind.Fits C k m) →
          ∃ n k', ∀ C ∈ Cs, C.WF ∧ C.nrows = n ∧ C.ncols = k' :=
        fun Cs k hC => ⟨k, _, fun C hC' => ⟨(hC C hC').1, (hC C hC').2.1, (hC C hC').2.2⟩⟩
      simp only [POp.evaluate, Interp.evaluate, h.entries, h.p, h.itp] at hev
      by_cases hd : mu.dim ≠ P.dim
      · rw [if_pos hd] at hev
        cases hev
      rw [if_neg hd] at hev
      rw [hx2 As h.len (shape As n h.fits)] at hev
      cases x with
      | error e => cases hev
      | ok w =>
        have hw := hx1 w rfl
        have hne : w ≠ [] := by
          intro h0
          rw [h0] at hw
          simp at hw
          omega
        have fA := (weightedSum_spec (o := t.kind) (r := n) (m := m) w As h.fits hne hA).1
        obtain ⟨g1, g2⟩ := galerkin_weighted solve t.kind As Bs w n m r hn hr h.fits V W hV hW hs hne hA h2
        simp only [Except.map, setEntries_fits _ _ n m hn fA, Except.ok.injEq] at hev
        subst hev
        refine ⟨⟨_, rfl, fA⟩, rfl, ⟨t.kind, some (weightedSum w Bs)⟩, projectOp_some solve rfl g1,
          ⟨_, rfl, g2⟩, rfl, ?_⟩
        intro p b' hb _
        cases hb with
        | same _ hsame =>
          have hun : (interpOf t.kind (some c) P Bs).unwrap mu = t.unwrap mu := by
            simp only [Interp.unwrap, interpOf, h.p]
          simp only [POp.evaluate, Interp.evaluate, hun]
          simp only [interpOf, itpData_some, if_neg hd]
          rw [hx2 Bs (hl.trans h.len) (shape Bs r hBf)]
          simp only [Except.map, setEntries_fits _ _ r m hr g2]
        | itp _ hn' => cases hn'

/-! ### Models -/

omit [CharZero K] [LinearOrder K] in
/-- The list comprehension of `evaluate` succeeds if and only if every operator can be evaluated. -/
theorem evalOps_snd_iff (lib : ItpLib K) (mu : Par K) (ss : List (PSlot K)) (ops : List (Op K)) :
    (evalOps lib mu ss).2 = .ok ops ↔ Forall₂ (fun s op => (s.op.evaluate lib mu).2 = .ok op) ss ops := by
  induction ss generalizing ops with
  | nil =>
    constructor
    · intro h
      cases h
      exact .nil
    · intro h
      cases h
      rfl
  | cons s ss ih =>
    simp only [evalOps]
    rcases hs : s.op.evaluate lib mu with ⟨o, x⟩
    cases x with
    | error e =>
      constructor
      · intro h
        cases h
      · intro h
        cases h with
        | cons h1 _ => rw [hs] at h1; cases h1
    | ok op =>
      simp only
      rcases hss : evalOps lib mu ss with ⟨ss', y⟩
      have ih' := fun l => ih l
      rw [hss] at ih'
      cases y with
      | error e =>
        constructor
        · intro h
          cases h
        · intro h
          cases h with
          | cons h1 h2 => exact absurd ((ih' _).2 h2) (by simp)
      | ok l =>
        constructor
        · intro h
          cases h
          exact .cons (by rw [hs]) ((ih' l).1 rfl)
        · intro h
          cases h with
          | cons h1 h2 =>
            rw [hs] at h1
            cases h1
            have := (ih' _).2 h2
            cases this
            rfl

omit [CharZero K] [LinearOrder K] in
/-- An operator that knows its parameter dimension can only be evaluated at parameters of this dimension. -/
theorem evaluate_dim (lib : ItpLib K) (o : POp K) (mu : Par K) (op : Op K) (d : Nat)
    (h : (o.evaluate lib mu).2 = .ok op) (hd : o.paramDim = some d) : d = mu.dim := by
  cases o with
  | np o => cases hd
  | aff a =>
    have hp : a.p = some d := hd
    simp only [POp.evaluate, Affine.evaluate] at h
    cases he : a.entries with
    | none => rw [he] at h; cases h
    | some As =>
      rw [he] at h
      have hl : a.learnDim mu = a := by simp [Affine.learnDim, hp]
      simp only [hl, hp] at h
      by_contra hc
      rw [if_pos (fun e => hc (Option.some.inj e).symm)] at h
      cases h
  | itp t =>
    have hp : t.p = some d := hd
    simp only [POp.evaluate, Interp.evaluate, hp] at h
    cases he : t.entries with
    | none => rw [he] at h; cases h
    | some As =>
      rw [he] at h
      simp only at h
      by_contra hc
      rw [if_pos (fun e => hc e.symm)] at h
      cases h

omit [CharZero K] in
/-- The array whose shape is the shape of a complete operator. -/
theorem complete_first {lib : ItpLib K} {o : POp K} {n m : Nat} (h : o.Complete lib n m) :
    o.isCal = true ∧ ∃ A, o.first = some A ∧ o.kind.Fits A n m := by
  cases o with
  | np o =>
    obtain ⟨E, hE, hF⟩ := h
    exact ⟨by simp [POp.isCal, hE], E, hE, hF⟩
  | aff a =>
    obtain ⟨As, h⟩ := h
    cases As with
    | nil =>
      have h1 := h.count
      have h2 := h.pos
      simp at h1
      omega
    | cons A As =>
      exact ⟨by simp [POp.isCal, h.entries], A, by simp [POp.first, h.entries], h.fits A mem_cons_self⟩
  | itp t =>
    obtain ⟨P, As, c, h, -⟩ := h
    cases As with
    | nil =>
      have h1 := h.len
      have h2 := h.wf.1
      simp at h1
      omega
    | cons A As =>
      exact ⟨by simp [POp.isCal, h.entries], A, by simp [POp.first, h.entries], h.fits A mem_cons_self⟩

omit [CharZero K] [LinearOrder K] in
/-- An evaluated model is the model with the evaluated operators. -/
theorem frozen_construct (plain : S) (l2 : Int → S) (ops : List (Op K)) (r m : Nat) (hr : 0 < r)
    (hne : ops ≠ []) (hcal : ∀ o ∈ ops, o.Cal r m) :
    frozen S ops = Model.construct plain l2 (ops.map OpArg.op) .none := by
  obtain ⟨N, h1, -, -, h4, -⟩ := frozen_ok (S := S) ops r m hr hne hcal
  have hsol : N.solver = none := by
    rw [frozen] at h1
    have : ((Model.blank K S).setOperators (ops.map OpArg.op)).1.solver = none := by
      unfold Model.setOperators
      repeat' split
      all_goals rfl
    rcases hs : (Model.blank K S).setOperators (ops.map OpArg.op) with ⟨N', x⟩
    rw [hs] at h1 this
    cases x with
    | error e => cases h1
    | ok _ => cases h1; exact this
  rw [h1]
  rw [frozen] at h1
  rw [Model.construct]
  rcases hs : (Model.blank K S).setOperators (ops.map OpArg.op) with ⟨N', x⟩
  rw [hs] at h1
  cases x with
  | error e => cases h1
  | ok _ =>
    cases h1
    simp only [Model.setSolver, h4, if_true]
    obtain ⟨a1, a2, a3, a4, a5, a6⟩ := N
    simp only at hsol h4
    subst hsol h4
    rfl

/-- The projected operators, and how they were obtained. -/
theorem project_ops (lib : ItpLib K) (L : List (POp K)) (n m r : Nat) (hn : 0 < n) (hr : 0 < r)
    (hall : ∀ o ∈ L, o.Complete lib n m) (V W : List (List K)) (hV : IsMat n r V) (hW : W.length = n)
    (hs : SolvesGram solve r V W) (hne : L ≠ [])
    (hp : ∀ a ∈ L, ∀ b ∈ L, ∀ d d', a.paramDim = some d → b.paramDim = some d' → d = d') :
    ∃ bs, L.mapM (fun o => o.project lib solve r r V W) = .ok bs ∧ PConsistent bs ∧
      (∀ b ∈ bs, b.Complete lib r m) ∧ bs.map POp.kind = L.map POp.kind ∧
      (∀ d, some d = (bs.filterMap POp.paramDim).head? → ∃ o ∈ L, o.paramDim = some d) ∧
      Forall₂ (fun o b => ∀ mu op, o.Regular lib mu → (o.evaluate lib mu).2 = .ok op →
        op.Cal n m ∧ op.kind = o.kind ∧ ∃ op', projectOp solve r V W op = .ok op' ∧ op'.Cal r m ∧
          op'.kind = o.kind ∧ ∀ p b', Synced p b b' → (p = none ∨ p = some mu.dim) →
            (b'.evaluate lib mu).2 = .ok op') L bs := by
  obtain ⟨bs, h1, h2⟩ := mapM_ok_forall₂ _ _ L fun o ho =>
    project_op solve lib o n m r hn hr (hall o ho) V W hV hW hs
  have hback : ∀ b ∈ bs, ∃ o ∈ L, b.Complete lib r m ∧ ∀ d, b.paramDim = some d → o.paramDim = some d := by
    intro b hb
    obtain ⟨o, ho, h⟩ := forall₂_mem_right h2 hb
    exact ⟨o, ho, h.1, h.2.2.2.1⟩
  have hcomp : ∀ b ∈ bs, b.Complete lib r m := fun b hb => by
    obtain ⟨_, -, h, -⟩ := hback b hb
    exact h
  have hcal : ∀ b ∈ bs, b.isCal = true := fun b hb => (complete_first (hcomp b hb)).1
  refine ⟨bs, h1, ⟨?_, ?_, ?_, ?_, ?_⟩, hcomp, ?_, ?_, h2.imp fun o b h => h.2.2.2.2⟩
  · intro h
    have := h2.length_eq
    rw [h] at this
    exact hne (length_eq_zero_iff.1 this)
  · refine pairwise_of_forall_mem_list fun a ha b _ h => ?_
    rw [hcal a ha] at h
    cases h
  · intro a ha b hb d d' h h'
    obtain ⟨A, hA, fA⟩ := (complete_first (hcomp a ha)).2
    obtain ⟨B, hB, fB⟩ := (complete_first (hcomp b hb)).2
    simp only [POp.stateDim, hA, hB, Option.map_some, Option.some.injEq] at h h'
    rw [← h, ← h', fA.2.1, fB.2.1]
  · intro a ha b hb i i' d d' h h'
    obtain ⟨A, hA, fA⟩ := (complete_first (hcomp a ha)).2
    obtain ⟨B, hB, fB⟩ := (complete_first (hcomp b hb)).2
    rw [POp.inputDim, hA, Op.Cal.inputDim (o := ⟨a.kind, some A⟩) ⟨A, rfl, fA⟩ hr i] at h
    rw [POp.inputDim, hB, Op.Cal.inputDim (o := ⟨b.kind, some B⟩) ⟨B, rfl, fB⟩ hr i'] at h'
    cases h
    cases h'
    rfl
  · intro a ha b hb d d' h h'
    obtain ⟨o, ho, -, e⟩ := hback a ha
    obtain ⟨o', ho', -, e'⟩ := hback b hb
    exact hp o ho o' ho' d d' (e d h) (e' d' h')
  · clear h1 hback hcomp hcal hne hp hall
    induction h2 with
    | nil => rfl
    | cons h _ ih => rw [map_cons, map_cons, ih, h.2.1]
  · intro d hd
    have hmem : d ∈ bs.filterMap POp.paramDim := mem_of_mem_head? (Option.mem_def.2 hd.symm)
    obtain ⟨b, hb, hbd⟩ := mem_filterMap.1 hmem
    obtain ⟨o, ho, -, e⟩ := hback b hb
    exact ⟨o, ho, e d hbd⟩

omit [CharZero K] [LinearOrder K] [Field K] in
theorem synced_kinds {R : POp K → POp K → Prop} {bs ops : List (POp K)} (h : Forall₂ R bs ops)
    (hkind : ∀ b b', R b b' → b'.kind = b.kind) : ops.map POp.kind = bs.map POp.kind := by
  induction h with
  | nil => rfl
  | cons h _ ih => rw [map_cons, map_cons, ih, hkind _ _ h]

/-- The evaluated operators of the projected model are the projected evaluated operators. -/
theorem commute_ops (lib : ItpLib K) (mu : Par K) (p : Option Nat) (hmu : p = none ∨ p = some mu.dim)
    (L bs bs' : List (POp K)) (ops : List (Op K)) (n m r : Nat) (V W : List (List K))
    (h : Forall₂ (fun o b => ∀ mu op, o.Regular lib mu → (o.evaluate lib mu).2 = .ok op →
        op.Cal n m ∧ op.kind = o.kind ∧ ∃ op', projectOp solve r V W op = .ok op' ∧ op'.Cal r m ∧
          op'.kind = o.kind ∧ ∀ p b', Synced p b b' → (p = none ∨ p = some mu.dim) →
            (b'.evaluate lib mu).2 = .ok op') L bs)
    (hsy : Forall₂ (Synced p) bs bs')
    (hev : Forall₂ (fun o op => (POp.evaluate lib o mu).2 = .ok op) L ops)
    (hreg : ∀ o ∈ L, o.Regular lib mu) :
    ∃ ops', ops.mapM (projectOp solve r V W) = .ok ops' ∧
      Forall₂ (fun o op => (POp.evaluate lib o mu).2 = .ok op) bs' ops' ∧ (∀ o ∈ ops, o.Cal n m) ∧
      ∀ o ∈ ops', o.Cal r m := by
  induction h generalizing bs' ops with
  | nil =>
    cases hsy
    cases hev
    exact ⟨[], rfl, .nil, by simp, by simp⟩
  | cons h _ ih =>
    cases hsy with
    | cons s1 s2 =>
      cases hev with
      | cons e1 e2 =>
        obtain ⟨ops', q1, q2, q3, q4⟩ := ih _ _ s2 e2 fun o ho => hreg o (mem_cons_of_mem _ ho)
        obtain ⟨c1, -, op', c3, c4, -, c6⟩ := h mu _ (hreg _ mem_cons_self) e1
        refine ⟨op' :: ops', ?_, .cons (c6 p _ s1 hmu) q2, ?_, ?_⟩
        · rw [mapM_cons, c3, q1]
          rfl
        · intro o ho
          rcases mem_cons.1 ho with rfl | ho
          · exact c1
          · exact q3 o ho
        · intro o ho
          rcases mem_cons.1 ho with rfl | ho
          · exact c4
          · exact q4 o ho

omit [CharZero K] [LinearOrder K] in
theorem evaluate_kinds (lib : ItpLib K) (mu : Par K) {L : List (POp K)} {ops : List (Op K)}
    (h : Forall₂ (fun o op => (POp.evaluate lib o mu).2 = .ok op) L ops) :
    ops.map Op.kind = L.map POp.kind := by
  induction h with
  | nil => rfl
  | cons h _ ih =>
    rename_i o op _ _ _
    rw [map_cons, map_cons, ih]
    congr 1
    cases o with
    | np o => cases h; rfl
    | aff a =>
      replace h : (a.evaluate mu).2 = .ok op := h
      have hk : (a.learnDim mu).kind = a.kind := by
        rw [Affine.learnDim]
        split <;> rfl
      rw [Affine.evaluate] at h
      cases hE : a.entries with
      | none => rw [hE] at h; cases h
      | some As =>
        rw [hE] at h
        simp only at h
        split at h
        · cases h
        · simp only at h
          repeat' split at h
          all_goals cases h
          exact hk
    | itp t =>
      replace h : t.evaluate lib mu = .ok op := h
      rw [Interp.evaluate] at h
      repeat' split at h
      all_goals cases h
      rfl

/-- The result of C121 with what is known about the evaluated model. -/
theorem commutes_core (lib : ItpLib K) (plain : S) (l2 : Int → S) (M : PModel K S) (n m r : Nat)
    (hn : 0 < n) (hr : 0 < r) (hne : M.ops ≠ []) (hall : ∀ o ∈ M.ops, o.Complete lib n m)
    (hp : ∀ a ∈ M.ops, ∀ b ∈ M.ops, ∀ d d', a.paramDim = some d → b.paramDim = some d' → d = d')
    (hpos : ∀ o ∈ M.ops, o.paramDim ≠ some 0) (V W : List (List K)) (hV : IsMat n r V)
    (hW : W.length = n) (hs : SolvesGram solve r V W) :
    ∃ N, M.galerkin lib solve plain r r V W = .ok N ∧ N.r = some r ∧
      N.ops.map POp.kind = M.ops.map POp.kind ∧
      ∀ mu F, (∀ o ∈ M.ops, o.Regular lib mu) → (M.evaluate lib mu).2 = .ok F →
        F.ops ≠ [] ∧ (∀ o ∈ F.ops, o.Cal n m) ∧ F.ops.map Op.kind = M.ops.map POp.kind ∧
        frozen S F.ops = .ok F ∧
        ∃ G, (N.evaluate lib mu).2 = .ok G ∧ F.galerkin solve plain l2 r r V W = .ok G := by
  obtain ⟨bs, h1, hc, hcomp, hk, hpd, h2⟩ := project_ops solve lib M.ops n m r hn hr hall V W hV hW hs hne hp
  have hpos' : ∀ b ∈ bs, b.paramDim ≠ some 0 := by
    intro b hb h0
    have : (bs.filterMap POp.paramDim).head? = some 0 := by
      cases hh : (bs.filterMap POp.paramDim).head? with
      | none =>
        rw [head?_eq_none_iff, filterMap_eq_nil_iff] at hh
        rw [hh b hb] at h0
        cases h0
      | some d =>
        obtain ⟨b', hb', e'⟩ := mem_filterMap.1 (mem_of_mem_head? (Option.mem_def.2 hh))
        rw [hc.params b' hb' b hb d 0 e' h0]
    obtain ⟨o, ho, e⟩ := hpd 0 this.symm
    exact hpos o ho e
  obtain ⟨rr, mm, e1, e2, ops', hsy, e3⟩ := (pconstruct_spec bs plain hpos').1 hc
  obtain ⟨p, hpe⟩ : ∃ p, p = (bs.filterMap POp.paramDim).head? := ⟨_, rfl⟩
  rw [← hpe] at hsy e3
  have hops' : ((zip ops' bs).map fun x => (⟨x.1, !x.2.isCal⟩ : PSlot K)).map PSlot.op = ops' := by
    rw [map_map]
    exact (map_congr_left fun _ _ => rfl).trans (map_fst_zip (le_of_eq hsy.length_eq.symm))
  have hkind : ∀ a b : POp K, Synced p a b → b.kind = a.kind := by
    intro a b h
    cases h <;> rfl
  obtain ⟨N, e3, hNo, hNr⟩ : ∃ N : PModel K S, PModel.construct bs plain = .ok N ∧ N.ops = ops' ∧ N.r = rr :=
    ⟨_, e3, hops', rfl⟩
  refine ⟨N, ?_, ?_, ?_, ?_⟩
  · rw [PModel.galerkin, h1]
    exact e3
  · obtain ⟨b, hb⟩ := exists_mem_of_ne_nil bs hc.nonempty
    obtain ⟨A, hA, fA⟩ := (complete_first (hcomp b hb)).2
    rw [hNr]
    exact consistentDim_ok e1 r (mem_filterMap.2 ⟨b, hb, by simp [POp.stateDim, hA, fA.2.1]⟩)
  · rw [hNo, ← hk]
    exact synced_kinds hsy hkind
  · intro mu F hreg hF
    obtain ⟨ops, hev, hfz⟩ : ∃ ops, (evalOps lib mu M.slots).2 = .ok ops ∧ frozen S ops = .ok F := by
      rw [PModel.evaluate] at hF
      rcases he : evalOps lib mu M.slots with ⟨ss, x⟩
      rw [he] at hF
      cases x with
      | error e => cases hF
      | ok ops => exact ⟨ops, rfl, hF⟩
    rw [evalOps_snd_iff] at hev
    have hev' : Forall₂ (fun o op => (POp.evaluate lib o mu).2 = .ok op) M.ops ops := by
      rw [PModel.ops, forall₂_map_left_iff]
      exact hev
    have hmu : p = none ∨ p = some mu.dim := by
      cases hq : p with
      | none => exact Or.inl rfl
      | some d =>
        obtain ⟨o, ho, e⟩ := hpd d (hq ▸ hpe)
        obtain ⟨op, -, hop⟩ := forall₂_mem_right hev'.flip ho
        exact Or.inr (by rw [evaluate_dim lib o mu op d hop e])
    obtain ⟨ops'', q1, q2, q3, q4⟩ := commute_ops solve lib mu p hmu M.ops bs ops' ops n m r V W h2 hsy hev' hreg
    have hopsne : ops ≠ [] := by
      intro h
      have := hev'.length_eq
      rw [h] at this
      exact hne (length_eq_zero_iff.1 this)
    have hopsne'' : ops'' ≠ [] := by
      intro h
      have := (h2.length_eq.trans hsy.length_eq).trans q2.length_eq
      rw [h] at this
      exact hne (length_eq_zero_iff.1 this)
    obtain ⟨G, g1, -⟩ := frozen_ok (S := S) ops'' r m hr hopsne'' q4
    have hFops : F.ops = ops := by
      obtain ⟨F', f1, f2, -⟩ := frozen_ok (S := S) ops n m hn hopsne q3
      rw [hfz] at f1
      cases f1
      exact f2
    refine ⟨hFops.symm ▸ hopsne, hFops.symm ▸ q3, hFops.symm ▸ evaluate_kinds lib mu hev', hFops.symm ▸ hfz,
      G, ?_, ?_⟩
    · have hN : (evalOps lib mu N.slots).2 = .ok ops'' := by
        rw [evalOps_snd_iff]
        have : Forall₂ (fun o op => (POp.evaluate lib o mu).2 = .ok op) N.ops ops'' := hNo ▸ q2
        rw [PModel.ops, forall₂_map_left_iff] at this
        exact this
      rw [PModel.evaluate]
      rcases he : evalOps lib mu N.slots with ⟨ss, x⟩
      rw [he] at hN
      simp only at hN
      subst hN
      exact g1
    · rw [model_galerkin_eq, hFops, q1]
      exact (frozen_construct plain l2 ops'' r m hr hopsne'' q4).symm.trans g1

/-- **C121.** `model.galerkin(Vr, Wr).evaluate(parameter)` is the model
`model.evaluate(parameter).galerkin(Vr, Wr)`: for every parametric model whose operators all have their
entries, all bases, and every parameter value at which the model can be evaluated. -/
theorem C121_commutes (lib : ItpLib K) (plain : S) (l2 : Int → S) (M : PModel K S) (n m r : Nat)
    (hn : 0 < n) (hr : 0 < r) (hne : M.ops ≠ []) (hall : ∀ o ∈ M.ops, o.Complete lib n m)
    (hp : ∀ a ∈ M.ops, ∀ b ∈ M.ops, ∀ d d', a.paramDim = some d → b.paramDim = some d' → d = d')
    (hpos : ∀ o ∈ M.ops, o.paramDim ≠ some 0) (V W : List (List K)) (hV : IsMat n r V)
    (hW : W.length = n) (hs : SolvesGram solve r V W) :
    ∃ N, M.galerkin lib solve plain r r V W = .ok N ∧ N.r = some r ∧
      N.ops.map POp.kind = M.ops.map POp.kind ∧
      ∀ mu F, (∀ o ∈ M.ops, o.Regular lib mu) → (M.evaluate lib mu).2 = .ok F →
        ∃ G, (N.evaluate lib mu).2 = .ok G ∧ F.galerkin solve plain l2 r r V W = .ok G := by
  obtain ⟨N, h1, h2, h3, h4⟩ := commutes_core solve lib plain l2 M n m r hn hr hne hall hp hpos V W hV hW hs
  exact ⟨N, h1, h2, h3, fun mu F a b => (h4 mu F a b).2.2.2.2⟩

/-- **C121, right-hand sides.** At every parameter value at which the model can be evaluated,
`(WᵀV) · reduced.rhs(mu, q̂, u) = Wᵀ · model.rhs(mu, V q̂, u)`, and
`reduced.rhs(mu, q̂, u) = Wᵀ · model.rhs(mu, V q̂, u)` if `WᵀV = I`. -/
theorem C121_rhs (lib : ItpLib K) (plain : S) (M : PModel K S) (n m r : Nat)
    (hn : 0 < n) (hr : 0 < r) (hne : M.ops ≠ []) (hall : ∀ o ∈ M.ops, o.Complete lib n m)
    (hin : (∀ o ∈ M.ops, o.kind.hasInputs = false) → m = 0)
    (hp : ∀ a ∈ M.ops, ∀ b ∈ M.ops, ∀ d d', a.paramDim = some d → b.paramDim = some d' → d = d')
    (hpos : ∀ o ∈ M.ops, o.paramDim ≠ some 0) (V W : List (List K)) (hV : IsMat n r V)
    (hW : W.length = n) (hs : SolvesGram solve r V W) :
    ∃ N, M.galerkin lib solve plain r r V W = .ok N ∧
      ∀ mu F, (∀ o ∈ M.ops, o.Regular lib mu) → (M.evaluate lib mu).2 = .ok F →
        ∀ (q : List K) (u : Option (List K)), q.length = r →
          ((∃ o ∈ M.ops, o.kind.hasInputs = true) → ∃ v, u = some v ∧ v.length = m) →
          ∃ y z, (N.rhs lib mu q u).2 = .ok y ∧ (M.rhs lib mu (matVec V q) u).2 = .ok z ∧
            matVec (gram r W V) y = matVec (transpose r W) z ∧
            (gram r W V = eye r → y = matVec (transpose r W) z) := by
  obtain ⟨N, h1, -, -, h4⟩ := commutes_core solve lib plain (fun _ => plain) M n m r hn hr hne hall hp hpos V W hV
    hW hs
  refine ⟨N, h1, fun mu F hreg hF q u hq hu => ?_⟩
  obtain ⟨f1, f2, f3, f4, G, g1, g2⟩ := h4 mu F hreg hF
  have hany : (F.ops.any fun o => o.kind.hasInputs) = M.ops.any fun o => o.kind.hasInputs := by
    have := congrArg (fun l => l.any OpKind.hasInputs) f3
    simpa only [any_map, Function.comp_def] using this
  obtain ⟨F', c1, -, c3, -, -, c6, c7, c8⟩ := construct_set plain (fun _ => plain) F.ops n m hn f1 f2 .none
  rw [← frozen_construct plain (fun _ => plain) F.ops n m hn f1 f2, f4] at c1
  cases c1
  have hT : F.Trained n m := by
    refine ⟨c6, hn, f1, c3, ?_, f2⟩
    cases hb : F.ops.any fun o => o.kind.hasInputs with
    | true => exact c7 hb
    | false =>
      rw [c8 hb, hin]
      rw [hany, any_eq_false] at hb
      simpa using hb
  obtain ⟨G', d1, -, -, -, -, d6⟩ := C18_galerkin_commutes solve plain (fun _ => plain) F n m r hT hr V W hV.1 hV.2 hW hs
  have hGG : G' = G := Except.ok.inj (d1.symm.trans g2)
  subst hGG
  obtain ⟨y, z, y1, y2, y3, y4⟩ := d6 q u hq fun hb => by
    rw [c6.inputs, hany, any_eq_true] at hb
    exact hu hb
  refine ⟨y, z, ?_, ?_, y3, y4⟩
  · simp only [PModel.rhs, g1, y1]
  · simp only [PModel.rhs, hF, y2]

/-- **C121, interpolatory models.** The same for models whose operators are all interpolated. -/
theorem C121_interpolated (lib : ItpLib K) (plain : S) (l2 : Int → S) (M : IModel K S) (n m r : Nat)
    (hn : 0 < n) (hr : 0 < r) (hne : M.base.ops ≠ []) (hitp : ∀ o ∈ M.base.ops, ∃ t, o = .itp t)
    (hall : ∀ o ∈ M.base.ops, o.Complete lib n m)
    (hp : ∀ a ∈ M.base.ops, ∀ b ∈ M.base.ops, ∀ d d', a.paramDim = some d → b.paramDim = some d' → d = d')
    (hpos : ∀ o ∈ M.base.ops, o.paramDim ≠ some 0) (V W : List (List K)) (hV : IsMat n r V)
    (hW : W.length = n) (hs : SolvesGram solve r V W) :
    ∃ N, M.galerkin lib solve plain r r V W = .ok N ∧ N.base.r = some r ∧
      N.base.ops.map POp.kind = M.base.ops.map POp.kind ∧
      ∀ mu F, (∀ o ∈ M.base.ops, o.Regular lib mu) → (M.base.evaluate lib mu).2 = .ok F →
        ∃ G, (N.base.evaluate lib mu).2 = .ok G ∧ F.galerkin solve plain l2 r r V W = .ok G := by
  obtain ⟨N, h1, h2, h3, h4⟩ := C121_commutes solve lib plain l2 M.base n m r hn hr hne hall hp hpos V W hV hW hs
  refine ⟨⟨N, none, []⟩, ?_, h2, h3, h4⟩
  rw [PModel.galerkin] at h1
  rw [IModel.galerkin]
  cases hb : M.base.ops.mapM fun o => o.project lib solve r r V W with
  | error e => rw [hb] at h1; cases h1
  | ok bs =>
    rw [hb] at h1
    simp only at h1 ⊢
    have h2' := mapM_ok_forall2.1 hb
    rw [IModel.construct, if_neg, if_neg, h1]
    · simp only
      rw [setAllClasses_id]
      intro s _ c' hc
      cases hc
    · simp only [any_eq_true, not_exists, not_and]
      intro b hb' hn'
      obtain ⟨o, ho, e⟩ := forall₂_mem_right h2' hb'
      obtain ⟨t, rfl⟩ := hitp o ho
      rw [POp.project] at e
      split at e
      · cases hc : t.copy lib with
        | error e' => rw [hc] at e; cases e
        | ok c => rw [hc] at e; cases e; simp [POp.interp?] at hn'
      · cases hc : t.galerkin lib solve r r V W with
        | error e' => rw [hc] at e; cases e
        | ok c => rw [hc] at e; cases e; simp [POp.interp?] at hn'
    · have := h2'.length_eq
      intro h0
      rw [h0] at this
      exact hne (length_eq_zero_iff.1 this)

/-! ### What is lost -/

omit [CharZero K] in
theorem affine_make_p (kind : OpKind) (f : Par K → Except Err (Par K)) (k : Option Int) (e : Option (EntArg K))
    (a : Affine K) (h : Affine.make kind (.func f) k e = .ok a) : a.p = none := by
  have hstart : ∀ b, Affine.start kind (.func f) k = .ok b → b.p = none := by
    intro b hb
    unfold Affine.start at hb
    by_cases hk : k.any (· < 1)
    · rw [if_pos hk] at hb
      cases hb
    · rw [if_neg hk] at hb
      simp only at hb
      cases k with
      | none => cases hb
      | some n => cases hb; rfl
  rw [Affine.make] at h
  cases hs : Affine.start kind (.func f) k with
  | error e => rw [hs] at h; cases h
  | ok b =>
    rw [hs] at h
    cases e with
    | none => cases h; exact hstart a hs
    | some e =>
      simp only at h
      rw [Affine.setEntries] at h
      repeat' split at h
      all_goals first | cases h | skip
      all_goals exact hstart b hs

omit [CharZero K] in
/-- **C121, the parameter dimension is lost.** If none of the operators is interpolated and all have their
entries, the projected model has no parameter dimension, whatever that of the model is. -/
theorem C121_forgets_dimension (lib : ItpLib K) (plain : S) (M N : PModel K S) (r r' : Nat) (V W : List (List K))
    (hcal : ∀ o ∈ M.ops, o.isCal = true) (hno : ∀ o ∈ M.ops, o.interp? = none)
    (h : M.galerkin lib solve plain r r' V W = .ok N) : N.p = none := by
  rw [PModel.galerkin] at h
  cases hb : M.ops.mapM fun o => o.project lib solve r r' V W with
  | error e => rw [hb] at h; cases h
  | ok bs =>
    rw [hb] at h
    simp only at h
    have h2 := mapM_ok_forall2.1 hb
    have hp : ∀ b ∈ bs, b.paramDim = none := by
      intro b hb'
      obtain ⟨o, ho, e⟩ := forall₂_mem_right h2 hb'
      have hc := hcal o ho
      have hi := hno o ho
      unfold POp.project at e
      cases o with
      | np o =>
        simp only at e
        split at e
        · cases hk : o.copy with
          | error e' => rw [hk] at e; cases e
          | ok c => rw [hk] at e; cases e; rfl
        · rename_i E _
          cases hk : o.kind.galerkin solve E r r' V W with
          | error e' => rw [hk] at e; cases e
          | ok c => rw [hk] at e; cases e; rfl
      | aff a =>
        simp only at e
        split at e
        · rename_i hE
          simp [POp.isCal, hE] at hc
        · cases hk : a.galerkin solve r r' V W with
          | error e' => rw [hk] at e; cases e
          | ok c =>
            rw [hk] at e
            cases e
            rw [Affine.galerkin] at hk
            split at hk
            · cases hk
            · split at hk
              · cases hk
              · exact affine_make_p _ _ _ _ _ hk
      | itp t => simp [POp.interp?] at hi
    have hpos : ∀ b ∈ bs, b.paramDim ≠ some 0 := fun b hb' => by simp [hp b hb']
    by_cases hc : PConsistent bs
    · obtain ⟨_, _, -, -, _, -, e⟩ := (pconstruct_spec bs plain hpos).1 hc
      rw [h] at e
      have : N.p = (bs.filterMap POp.paramDim).head? := by
        rw [Except.ok.inj e]
      rw [this, filterMap_eq_nil_iff.2 hp]
      rfl
    · rw [(pconstruct_spec bs plain hpos).2 hc] at h
      cases h

end

/-! ### Examples -/

/-- Linear interpolation between two nodes. -/
def lineLib : ItpLib ℚ where
  build _ _ _ := .ok ()
  eval _ P As mu := match P, mu with
    | .one [a, b], .scalar x => .ok (weightedSum [(b - x) / (b - a), (x - a) / (b - a)] As)
    | _, _ => .error .value

theorem lineLib_linear (c : ItpClass) (P : PArr ℚ) (mu : Par ℚ) : lineLib.LinearAt c P mu := by
  by_cases h : ∃ a b x, P = .one [a, b] ∧ mu = .scalar x
  · obtain ⟨a, b, x, rfl, rfl⟩ := h
    exact ⟨.ok [(b - x) / (b - a), (x - a) / (b - a)], fun w hw => by cases hw; rfl, fun _ _ _ => rfl⟩
  · refine ⟨.error .value, by simp, fun Bs _ _ => ?_⟩
    simp only [lineLib]
    split
    · exact absurd ⟨_, _, _, rfl, rfl⟩ h
    · rfl

/-- Coefficients `(1, mu)`. -/
def pgCoef (mu : Par ℚ) : Except Err (Par ℚ) := .ok (.vec (1 :: mu.toList.take 1))

/-- `A₁ + mu A₂`. -/
def pgAff (p : Option Nat) : Affine ℚ := ⟨.lin, 2, pgCoef, p, some [⟨2, 2, [[1, 2], [3, 4]]⟩, ⟨2, 2, [[0, 1], [1, 0]]⟩]⟩

/-- A constant operator interpolated between the parameter values 0 and 2. -/
def pgItp : Interp ℚ := interpOf .const (some .cubic) (.one [0, 2]) [⟨2, 1, [[1], [1]]⟩, ⟨2, 1, [[3], [5]]⟩]

/-- A model with an affine, an interpolated and a nonparametric operator. -/
def pgModel : PModel ℚ Unit := ⟨[⟨.aff (pgAff (some 1)), false⟩, ⟨.itp pgItp, false⟩,
  ⟨.np ⟨.inp, some ⟨2, 1, [[1], [0]]⟩⟩, false⟩], true, some 2, some 1, true, none, some 1, none⟩

theorem pgModel_complete : ∀ o ∈ pgModel.ops, o.Complete lineLib 2 1 := by
  intro o ho
  simp only [pgModel, PModel.ops, map_cons, map_nil, mem_cons, not_mem_nil, or_false] at ho
  rcases ho with rfl | rfl | rfl
  · refine ⟨_, rfl, rfl, by decide, ?_⟩
    intro A hA
    simp only [mem_cons, not_mem_nil, or_false] at hA
    rcases hA with rfl | rfl <;> exact ⟨by decide +kernel, rfl, rfl⟩
  · refine ⟨.one [0, 2], _, .cubic, ⟨rfl, by unfold PArr.WF; decide +kernel, rfl, rfl, rfl, ?_, rfl, rfl, rfl⟩, fun _ _ _ => rfl⟩
    intro A hA
    simp only [mem_cons, not_mem_nil, or_false] at hA
    rcases hA with rfl | rfl <;> exact ⟨by decide +kernel, rfl, rfl⟩
  · exact ⟨_, rfl, by decide +kernel, rfl, rfl⟩

/-- The hypotheses of C121 hold of the model, the bases `V = (1, 1)ᵀ`, `W = (1, 1)ᵀ`, and the parameter value 1. -/
example : (∀ o ∈ pgModel.ops, o.Complete lineLib 2 1) ∧
    (∀ o ∈ pgModel.ops, o.Regular lineLib (.scalar 1)) ∧ (∀ o ∈ pgModel.ops, o.paramDim ≠ some 0) ∧
    SolvesGram cmpDiag 1 [[1], [1]] [[1], [1]] ∧
    (pgModel.rhs lineLib (.scalar 1) (matVec [[1], [1]] [2]) (some [3])).2 = .ok [13, 19] ∧
    ((pgModel.galerkin lineLib cmpDiag () 1 1 [[1], [1]] [[1], [1]]).bind fun N =>
      (N.rhs lineLib (.scalar 1) [2] (some [3])).2) = .ok [16] := by
  refine ⟨pgModel_complete, ?_, by decide +kernel, fun _ => ?_, by decide +kernel, by decide +kernel⟩
  · intro o ho
    simp only [pgModel, PModel.ops, map_cons, map_nil, mem_cons, not_mem_nil, or_false] at ho
    rcases ho with rfl | rfl | rfl
    · exact ⟨[1, 1], rfl, rfl⟩
    · exact fun P c _ _ => lineLib_linear c P _
    · trivial
  · rw [show gram 1 [[1], [1]] [[1], [1]] = ([[2]] : List (List ℚ)) by decide +kernel]
    exact cmpDiag_one 2 (by norm_num)

/-- A model with the affine operator `A₁ + mu₁ A₂` that expects two parameters. -/
def pgTwo : PModel ℚ Unit := ⟨[⟨.aff (pgAff (some 2)), false⟩], false, some 2, some 0, true, none, some 2, none⟩

/-- **C121, the parameter dimension is lost.** A model for two parameters refuses a parameter value with one entry,
its projection accepts it. -/
theorem C121_accepts_other_dimension :
    (pgTwo.evaluate lineLib (.vec [1])).2 = .error .value ∧
    ∃ N, pgTwo.galerkin lineLib cmpDiag () 1 1 [[1], [0]] [[1], [0]] = .ok N ∧ N.p = none ∧
      ((N.evaluate lineLib (.vec [1])).2.map fun F => F.ops) = .ok [⟨.lin, some ⟨1, 1, [[1]]⟩⟩] := by
  have key : ((pgTwo.galerkin lineLib cmpDiag () 1 1 [[1], [0]] [[1], [0]]).bind fun N =>
      (N.evaluate lineLib (.vec [1])).2.map fun F => F.ops) = .ok [⟨.lin, some ⟨1, 1, [[1]]⟩⟩] := by decide +kernel
  refine ⟨by decide +kernel, ?_⟩
  cases h : pgTwo.galerkin lineLib cmpDiag () 1 1 [[1], [0]] [[1], [0]] with
  | error e => rw [h] at key; cases key
  | ok N =>
    rw [h] at key
    exact ⟨N, rfl, C121_forgets_dimension cmpDiag lineLib () pgTwo N 1 1 _ _ (by decide) (by decide) h, key⟩

end Opinf
