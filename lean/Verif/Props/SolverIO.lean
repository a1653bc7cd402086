import Verif.Model.SolverIO
import Verif.Props.LstsqL2
import Verif.Props.LstsqTik
import Mathlib.Algebra.Order.Ring.Rat
import Mathlib.Tactic.Linarith

/-!
# C82: solvers survive saving, loading and copying
-/

namespace Opinf

open List

variable {K : Type}

/-! ### Specification -/

/-- The stored matrices are aligned. -/
def DataOk (data : Option (Mat K × Mat K)) : Prop := ∀ D Z, data = some (D, Z) → Z.ncols = D.nrows

/-- What a class computes in `fit` only counts if there are data. -/
def counted {P : Type} (data : Option (Mat K × Mat K)) (pre : Option P) : Option P := if data.isSome then pre else none

/-- Writing a file with a `save` method and reading it with a `load` method gives `y`. -/
def RoundTrip {α : Type} (saved : Saved K) (load : H5 K → Except Err α) (y : α) : Prop :=
  ∀ (fs : FS K) (path : String) (overwrite : Bool), fs path = none ∨ overwrite = true →
    ∃ fs' w, saveFile fs path overwrite saved = (fs', .ok (), w) ∧ loadFile fs' path load = .ok y ∧
      ∀ p, p ≠ path → fs' p = fs p

theorem roundTrip_of {α : Type} {saved : Saved K} {load : H5 K → Except Err α} {y : α} (h : H5 K)
    (h1 : saved = (h, .ok ())) (h2 : load h = .ok y) : RoundTrip saved load y := by
  intro fs path ow hfree
  refine ⟨fs.write path h, !h5Ending path, ?_, ?_, ?_⟩
  · rw [saveFile, if_neg, h1]
    rcases hfree with hf | hf
    · simp [hf]
    · simp [hf]
  · simp [loadFile, FS.write, h2, asLoadError]
  · intro p hp
    rw [FS.write, if_neg hp]

/-- The same if both fail: the file is there, but cannot be read. -/
def SaveFails {α : Type} (saved : Saved K) (e : Err) (load : H5 K → Except Err α) : Prop :=
  ∀ (fs : FS K) (path : String) (overwrite : Bool), fs path = none ∨ overwrite = true →
    ∃ fs' w, saveFile fs path overwrite saved = (fs', .error e, w) ∧ loadFile fs' path load = .error .loadfileFormat

theorem saveFails_of {α : Type} {saved : Saved K} {load : H5 K → Except Err α} {e e' : Err} (h : H5 K)
    (h1 : saved = (h, .error e)) (h2 : load h = .error e') : SaveFails saved e load := by
  intro fs path ow hfree
  refine ⟨fs.write path h, !h5Ending path, ?_, ?_⟩
  · rw [saveFile, if_neg, h1]
    rcases hfree with hf | hf
    · simp [hf]
    · simp [hf]
  · simp [loadFile, FS.write, h2, asLoadError]

/-! ### Reading back -/

theorem templateFit_stored {D Z : Mat K} (h : Z.ncols = D.nrows) : templateFit (.mat D) (.mat Z) = .ok (D, Z) := by
  simp [templateFit, h]

theorem takeStr_put {h : H5 K} {key : String} {s : Option String} (hs : s ≠ some "NULL")
    (hh : h.get? key = some (putStr s)) : takeStr h key = .ok s := by
  rw [takeStr, hh, putStr]
  cases s with
  | none => simp
  | some s => simp only [Option.getD_some]; rw [if_neg (fun e => hs (by rw [e]))]

theorem takeNum_put {h : H5 K} {key : String} {s : Option K} (hh : h.get? key = some (putNum s)) :
    takeNum h key = .ok s := by
  rw [takeNum, hh]
  cases s <;> simp [putNum]

/-- **C82.** `PlainSolver`. -/
theorem C82_plain (x : SolverFile (Plain K) K) (hd : DataOk x.solver.data) (hn : x.opts.driver ≠ some "NULL") :
    RoundTrip (Plain.save x) Plain.load x := by
  obtain ⟨⟨data⟩, c, d⟩ := x
  refine roundTrip_of _ rfl ?_
  cases data with
  | none =>
    rw [Plain.load, takeNum_put (s := c) rfl, takeStr_put (s := d) hn rfl]
    rfl
  | some p =>
    obtain ⟨D, Z⟩ := p
    rw [Plain.load, takeNum_put (s := c) rfl, takeStr_put (s := d) hn rfl]
    have : takeData (H5.node ([("options.cond", putNum c), ("options.lapack_driver", putStr d)] ++
        putData (some (D, Z))) []) = .ok (some (D, Z)) := by
      change (do
        let x ← templateFit (.mat D) (.mat Z)
        return some x) = _
      rw [templateFit_stored (hd D Z rfl)]
      rfl
    simp only [bind, Except.bind]
    rw [this]
    rfl

section
variable [Zero K] [LinearOrder K]

omit [Zero K] [LinearOrder K] in
theorem takeData_node (vals : List (String × H5Val K)) (data : Option (Mat K × Mat K)) (hd : DataOk data)
    (h1 : (H5.node vals []).get? "data_matrix" = data.map fun x => .mat x.1)
    (h2 : (H5.node vals []).get? "lhs_matrix" = data.map fun x => .mat x.2) :
    takeData (.node vals []) = .ok data := by
  cases data with
  | none => rw [takeData, h1]; rfl
  | some p =>
    obtain ⟨D, Z⟩ := p
    simp only [Option.map_some] at h1 h2
    simp only [takeData, h1, H5.mat, h2, bind, Except.bind]
    rw [templateFit_stored (hd D Z rfl)]
    rfl

/-- **C82.** `L2Solver`. -/
theorem C82_l2 (x : SolverFile (L2 K K) K) (hd : DataOk x.solver.data) (hp : x.solver.data.isSome → x.solver.pre.isSome)
    (hr : ∀ a ∈ x.solver.reg, 0 ≤ a) (hc : x.opts.cond = none) (hn : x.opts.driver ≠ some "NULL") :
    RoundTrip (L2.save x) L2.load ⟨{ x.solver with pre := counted x.solver.data x.solver.pre }, x.opts⟩ := by
  obtain ⟨⟨reg, data, pre⟩, c, d⟩ := x
  simp only at hd hp hr hc hn
  subst hc
  have key : ∀ vals : List (String × H5Val K), (H5.node vals []).get? "data_matrix" = data.map (fun x => .mat x.1) →
      (H5.node vals []).get? "lhs_matrix" = data.map (fun x => .mat x.2) →
      (H5.node vals []).get? "options.lapack_driver" = some (putStr d) →
      (H5.node vals []).get? "regularizer" = reg.map (fun a => .arr [a]) →
      (∀ x p, data = some x → pre = some p → L2Pre.take "_PsiT" (H5.node vals []) = .ok p) →
      L2.load (.node vals []) = .ok ⟨⟨reg, data, counted data pre⟩, none, d⟩ := by
    intro vals h1 h2 h3 h4 h5
    have e1 : takeReg (H5.node vals []) = .ok (reg.map fun a => [a]) := by
      rw [takeReg, h4]
      cases reg with
      | none => rfl
      | some a => simp [H5.arr, h4, Except.map]
    have e2 : firstReg (reg.map fun a => [a]) = .ok reg := by cases reg <;> rfl
    have e3 : L2.construct reg = .ok ⟨reg, none, none⟩ := by
      cases reg with
      | none => rfl
      | some a => simp [L2.construct, L2.setReg, not_lt.mpr (hr a rfl)]
    have e4 : takePre data (L2Pre.take "_PsiT" (H5.node vals [])) = .ok (counted data pre) := by
      cases data with
      | none => rfl
      | some x =>
        obtain ⟨p, rfl⟩ := Option.isSome_iff_exists.mp (hp rfl)
        rw [takePre, h5 x p rfl rfl]
        rfl
    rw [L2.load, e1, takeStr_put hn h3, takeData_node vals data hd h1 h2]
    simp only [bind, Except.bind, e2, e3, e4]
    rfl
  cases data with
  | none =>
    cases reg with
    | none => exact roundTrip_of _ rfl (key _ rfl rfl rfl rfl (by simp))
    | some a => exact roundTrip_of _ rfl (key _ rfl rfl rfl rfl (by simp))
  | some x =>
    obtain ⟨p, rfl⟩ := Option.isSome_iff_exists.mp (hp rfl)
    cases reg with
    | none => exact roundTrip_of _ rfl (key _ rfl rfl rfl rfl (by rintro _ _ ⟨⟩ ⟨⟩; rfl))
    | some a => exact roundTrip_of _ rfl (key _ rfl rfl rfl rfl (by rintro _ _ ⟨⟩ ⟨⟩; rfl))

/-- **C82.** `L2DecoupledSolver`. -/
theorem C82_l2_decoupled (x : SolverFile (L2 (List K) K) K) (hd : DataOk x.solver.data)
    (hp : x.solver.data.isSome → x.solver.pre.isSome)
    (hr : ∀ v ∈ x.solver.reg, ∀ a ∈ v, 0 ≤ a) (hc : x.opts.cond = none) (hn : x.opts.driver ≠ some "NULL") :
    RoundTrip (L2.saveDec x) L2.loadDec ⟨{ x.solver with pre := counted x.solver.data x.solver.pre }, x.opts⟩ := by
  obtain ⟨⟨reg, data, pre⟩, c, d⟩ := x
  simp only at hd hp hr hc hn
  subst hc
  have key : ∀ vals : List (String × H5Val K), (H5.node vals []).get? "data_matrix" = data.map (fun x => .mat x.1) →
      (H5.node vals []).get? "lhs_matrix" = data.map (fun x => .mat x.2) →
      (H5.node vals []).get? "options.lapack_driver" = some (putStr d) →
      (H5.node vals []).get? "regularizer" = reg.map (fun a => .arr a) →
      (∀ x p, data = some x → pre = some p → L2Pre.take "_PsiT" (H5.node vals []) = .ok p) →
      L2.loadDec (.node vals []) = .ok ⟨⟨reg, data, counted data pre⟩, none, d⟩ := by
    intro vals h1 h2 h3 h4 h5
    have e1 : takeReg (H5.node vals []) = .ok reg := by
      rw [takeReg, h4]
      cases reg with
      | none => rfl
      | some a => simp [H5.arr, h4, Except.map]
    have e3 : L2.constructDec reg = .ok ⟨reg, none, none⟩ := by
      cases reg with
      | none => rfl
      | some v =>
        have : (v.any fun x => decide (x < 0)) = false := by
          rw [any_eq_false]
          intro a ha
          simpa using hr v rfl a ha
        simp [L2.constructDec, L2.setRegs, this]
    have e4 : takePre data (L2Pre.take "_PsiT" (H5.node vals [])) = .ok (counted data pre) := by
      cases data with
      | none => rfl
      | some x =>
        obtain ⟨p, rfl⟩ := Option.isSome_iff_exists.mp (hp rfl)
        rw [takePre, h5 x p rfl rfl]
        rfl
    rw [L2.loadDec, e1, takeStr_put hn h3, takeData_node vals data hd h1 h2]
    simp only [bind, Except.bind, e3, e4]
    rfl
  cases data with
  | none =>
    cases reg with
    | none => exact roundTrip_of _ rfl (key _ rfl rfl rfl rfl (by simp))
    | some a => exact roundTrip_of _ rfl (key _ rfl rfl rfl rfl (by simp))
  | some x =>
    obtain ⟨p, rfl⟩ := Option.isSome_iff_exists.mp (hp rfl)
    cases reg with
    | none => exact roundTrip_of _ rfl (key _ rfl rfl rfl rfl (by rintro _ _ ⟨⟩ ⟨⟩; rfl))
    | some a => exact roundTrip_of _ rfl (key _ rfl rfl rfl rfl (by rintro _ _ ⟨⟩ ⟨⟩; rfl))

end

/-! ### Tikhonov -/

theorem tik_loadWith {R : Type} (reg : Option R) (m : TikMethod) (data : Option (Mat K × Mat K)) (pre : Option (TikPre K))
    (c : Option K) (d : Option String) (hd : DataOk data) (hp : data.isSome → pre.isSome) (hn : d ≠ some "NULL")
    (vals : List (String × H5Val K)) (h1 : (H5.node vals []).get? "data_matrix" = data.map fun x => .mat x.1)
    (h2 : (H5.node vals []).get? "lhs_matrix" = data.map fun x => .mat x.2)
    (h3 : (H5.node vals []).get? "options.lapack_driver" = some (putStr d))
    (h4 : (H5.node vals []).get? "options.cond" = some (putNum c))
    (h5 : (H5.node vals []).get? "method" = some (.str m.name))
    (h6 : ∀ x p, data = some x → pre = some p → TikPre.take (H5.node vals []) = .ok p) :
    Tik.loadWith reg (.node vals []) = .ok ⟨⟨reg, m, data, counted data pre⟩, c, d⟩ := by
  have e1 : (H5.node vals []).str "method" = .ok m.name := by rw [H5.str, h5]
  have e2 : TikMethod.ofName m.name = .ok m := by cases m <;> decide
  have e4 : takePre data (TikPre.take (H5.node vals [])) = .ok (counted data pre) := by
    cases data with
    | none => rfl
    | some x =>
      obtain ⟨p, rfl⟩ := Option.isSome_iff_exists.mp (hp rfl)
      rw [takePre, h6 x p rfl rfl]
      rfl
  rw [Tik.loadWith, takeNum_put h4, takeStr_put hn h3, e1, takeData_node vals data hd h1 h2]
  simp only [bind, Except.bind, e2, e4]
  rfl

/-- **C82.** `TikhonovSolver`. -/
theorem C82_tikhonov (x : SolverFile (Tik (Mat K) K) K) (hd : DataOk x.solver.data)
    (hp : x.solver.data.isSome → x.solver.pre.isSome) (hn : x.opts.driver ≠ some "NULL") :
    RoundTrip (Tik.save x) Tik.load ⟨{ x.solver with pre := counted x.solver.data x.solver.pre }, x.opts⟩ := by
  obtain ⟨⟨reg, m, data, pre⟩, c, d⟩ := x
  simp only at hd hp hn
  have key : ∀ vals : List (String × H5Val K), (H5.node vals []).get? "regularizer" = reg.map (fun G => .mat G) →
      Tik.loadWith reg (.node vals []) = .ok ⟨⟨reg, m, data, counted data pre⟩, c, d⟩ →
      Tik.load (.node vals []) = .ok ⟨⟨reg, m, data, counted data pre⟩, c, d⟩ := by
    intro vals h1 h2
    have e1 : takeMatReg (H5.node vals []) = .ok reg := by
      rw [takeMatReg, h1]
      cases reg with
      | none => rfl
      | some a => simp [H5.mat, h1, Except.map]
    rw [Tik.load, e1]
    exact h2
  cases data with
  | none =>
    cases reg with
    | none => exact roundTrip_of _ rfl (key _ rfl (tik_loadWith _ _ _ _ _ _ hd hp hn _ rfl rfl rfl rfl rfl (by simp)))
    | some a => exact roundTrip_of _ rfl (key _ rfl (tik_loadWith _ _ _ _ _ _ hd hp hn _ rfl rfl rfl rfl rfl (by simp)))
  | some x =>
    obtain ⟨p, rfl⟩ := Option.isSome_iff_exists.mp (hp rfl)
    cases reg with
    | none => exact roundTrip_of _ rfl (key _ rfl (tik_loadWith _ _ _ _ _ _ hd hp hn _ rfl rfl rfl rfl rfl (by rintro _ _ ⟨⟩ ⟨⟩; rfl)))
    | some a => exact roundTrip_of _ rfl (key _ rfl (tik_loadWith _ _ _ _ _ _ hd hp hn _ rfl rfl rfl rfl rfl (by rintro _ _ ⟨⟩ ⟨⟩; rfl)))

/-- All regularization matrices have the same shape. -/
def SameShapes (Gs : List (Mat K)) : Prop := ∀ G ∈ Gs, ∀ H ∈ Gs, G.nrows = H.nrows ∧ G.ncols = H.ncols

theorem uniformShapes_iff (Gs : List (Mat K)) : uniformShapes Gs = true ↔ SameShapes Gs := by
  cases Gs with
  | nil => simp [uniformShapes, SameShapes]
  | cons G Gs =>
    simp only [uniformShapes, all_eq_true, Bool.and_eq_true, beq_iff_eq]
    constructor
    · intro h A hA B hB
      have hG : ∀ H ∈ G :: Gs, H.nrows = G.nrows ∧ H.ncols = G.ncols := by
        intro H hH
        rcases mem_cons.mp hH with rfl | hH
        · exact ⟨rfl, rfl⟩
        · exact h H hH
      exact ⟨(hG A hA).1.trans (hG B hB).1.symm, (hG A hA).2.trans (hG B hB).2.symm⟩
    · intro h H hH
      exact h H (mem_cons_of_mem _ hH) G mem_cons_self

/-- **C82.** `TikhonovDecoupledSolver`, if the regularizers have the same shape (as they must for `solve`). -/
theorem C82_tikhonov_decoupled (x : SolverFile (Tik (List (Mat K)) K) K) (hd : DataOk x.solver.data)
    (hp : x.solver.data.isSome → x.solver.pre.isSome) (hr : ∀ Gs ∈ x.solver.reg, SameShapes Gs)
    (hn : x.opts.driver ≠ some "NULL") :
    RoundTrip (Tik.saveDec x) Tik.loadDec ⟨{ x.solver with pre := counted x.solver.data x.solver.pre }, x.opts⟩ := by
  obtain ⟨⟨reg, m, data, pre⟩, c, d⟩ := x
  simp only at hd hp hn hr
  have key : ∀ vals : List (String × H5Val K), (H5.node vals []).get? "regularizer" = reg.map (fun G => .cube G) →
      Tik.loadWith reg (.node vals []) = .ok ⟨⟨reg, m, data, counted data pre⟩, c, d⟩ →
      Tik.loadDec (.node vals []) = .ok ⟨⟨reg, m, data, counted data pre⟩, c, d⟩ := by
    intro vals h1 h2
    have e1 : takeCube (H5.node vals []) = .ok reg := by
      rw [takeCube, h1]
      cases reg <;> rfl
    rw [Tik.loadDec, e1]
    exact h2
  have hs : ∀ Gs, reg = some Gs → Tik.saveDec ⟨⟨reg, m, data, pre⟩, c, d⟩ =
      Tik.saveWith [("regularizer", .cube Gs)] ⟨⟨reg, m, data, pre⟩, c, d⟩ := by
    rintro Gs rfl
    exact if_pos ((uniformShapes_iff Gs).mpr (hr Gs rfl))
  cases data with
  | none =>
    cases reg with
    | none => exact roundTrip_of _ rfl (key _ rfl (tik_loadWith _ _ _ _ _ _ hd hp hn _ rfl rfl rfl rfl rfl (by simp)))
    | some a =>
      exact roundTrip_of _ (hs a rfl) (key _ rfl (tik_loadWith _ _ _ _ _ _ hd hp hn _ rfl rfl rfl rfl rfl (by simp)))
  | some x =>
    obtain ⟨p, rfl⟩ := Option.isSome_iff_exists.mp (hp rfl)
    cases reg with
    | none => exact roundTrip_of _ rfl (key _ rfl (tik_loadWith _ _ _ _ _ _ hd hp hn _ rfl rfl rfl rfl rfl (by rintro _ _ ⟨⟩ ⟨⟩; rfl)))
    | some a =>
      exact roundTrip_of _ (hs a rfl) (key _ rfl (tik_loadWith _ _ _ _ _ _ hd hp hn _ rfl rfl rfl rfl rfl
        (by rintro _ _ ⟨⟩ ⟨⟩; rfl)))

/-- **C82.** Regularizers of different shapes, which are only checked by `fit`, cannot be saved; an existing file is
destroyed by the attempt. -/
theorem C82_tikhonov_decoupled_shapes (x : SolverFile (Tik (List (Mat K)) K) K) (Gs : List (Mat K)) (hG : x.solver.reg = some Gs)
    (h : ¬ SameShapes Gs) : SaveFails (Tik.saveDec x) .value Tik.loadDec := by
  have hu : ¬ uniformShapes Gs = true := fun hu => h ((uniformShapes_iff Gs).mp hu)
  refine saveFails_of (.node [] []) (e' := .key) ?_ rfl
  simp only [Tik.saveDec, hG]
  rw [if_neg hu]

/-- **C82.** The file says which method a loaded `TikhonovSolver` or `TikhonovDecoupledSolver` has; files with another
name are refused. -/
theorem C82_tikhonov_method (h : H5 K) :
    (∀ x, Tik.load h = .ok x → h.str "method" = .ok x.solver.method.name) ∧
    (∀ x, Tik.loadDec h = .ok x → h.str "method" = .ok x.solver.method.name) ∧
    ∀ name, h.str "method" = .ok name → name ≠ "lstsq" → name ≠ "normal" → ∀ (fs : FS K) (path : String),
      fs path = some h → loadFile fs path Tik.load = .error .loadfileFormat ∧
        loadFile fs path Tik.loadDec = .error .loadfileFormat := by
  have hname : ∀ name m, TikMethod.ofName name = .ok m → name = m.name := by
    intro name m hm
    rw [TikMethod.ofName] at hm
    split at hm
    · rename_i h1; cases hm; exact h1
    · split at hm
      · rename_i h1; cases hm; exact h1
      · cases hm
  have key : ∀ {R : Type} (reg : Option R) x, Tik.loadWith reg h = .ok x → h.str "method" = .ok x.solver.method.name := by
    intro R reg x hx
    simp only [Tik.loadWith, bind, Except.bind] at hx
    cases h1 : takeNum h "options.cond" with
    | error e => rw [h1] at hx; cases hx
    | ok c =>
    cases h2 : takeStr h "options.lapack_driver" with
    | error e => rw [h1, h2] at hx; cases hx
    | ok d =>
    cases h3 : h.str "method" with
    | error e => rw [h1, h2, h3] at hx; cases hx
    | ok name =>
    cases h4 : TikMethod.ofName name with
    | error e => rw [h1, h2, h3] at hx; simp only [h4] at hx; cases hx
    | ok m =>
    cases h5 : takeData h with
    | error e => rw [h1, h2, h3] at hx; simp only [h4, h5] at hx; cases hx
    | ok data =>
    cases h6 : takePre data (TikPre.take h) with
    | error e => rw [h1, h2, h3] at hx; simp only [h4, h5, h6] at hx; cases hx
    | ok pre =>
    rw [h1, h2, h3] at hx
    simp only [h4, h5, h6] at hx
    cases hx
    rw [hname name m h4]
  have k1 : ∀ x, Tik.load h = .ok x → h.str "method" = .ok x.solver.method.name := by
    intro x hx
    simp only [Tik.load, bind, Except.bind] at hx
    cases h1 : takeMatReg h with
    | error e => rw [h1] at hx; cases hx
    | ok reg => rw [h1] at hx; exact key reg x hx
  have k2 : ∀ x, Tik.loadDec h = .ok x → h.str "method" = .ok x.solver.method.name := by
    intro x hx
    simp only [Tik.loadDec, bind, Except.bind] at hx
    cases h1 : takeCube h with
    | error e => rw [h1] at hx; cases hx
    | ok reg => rw [h1] at hx; exact key reg x hx
  refine ⟨k1, k2, ?_⟩
  intro name hn n1 n2 fs path hf
  have hno : ∀ m : TikMethod, name ≠ m.name := by
    intro m; cases m
    · exact n1
    · exact n2
  refine ⟨?_, ?_⟩
  · simp only [loadFile, hf, asLoadError]
    cases hx : Tik.load h with
    | error e => rfl
    | ok x => have := k1 x hx; rw [hn] at this; exact absurd (Except.ok.inj this) (hno _)
  · simp only [loadFile, hf, asLoadError]
    cases hx : Tik.loadDec h with
    | error e => rfl
    | ok x => have := k2 x hx; rw [hn] at this; exact absurd (Except.ok.inj this) (hno _)

/-! ### TSVD and total least squares -/

/-- **C82.** `TruncatedSVDSolver`, once the number of modes is set. -/
theorem C82_tsvd_partial (x : SolverFile (Tsvd K) K) (hd : DataOk x.solver.data)
    (hp : x.solver.data.isSome → x.solver.pre.isSome) (hm : x.solver.nmodes.isSome) (hc : x.opts.cond = none)
    (hn : x.opts.driver ≠ some "NULL") :
    RoundTrip (Tsvd.save x) Tsvd.load ⟨{ x.solver with pre := counted x.solver.data x.solver.pre }, x.opts⟩ := by
  obtain ⟨⟨n, data, pre⟩, c, d⟩ := x
  simp only at hd hp hm hc hn
  subst hc
  obtain ⟨n, rfl⟩ := Option.isSome_iff_exists.mp hm
  have key : ∀ vals : List (String × H5Val K), (H5.node vals []).get? "data_matrix" = data.map (fun x => .mat x.1) →
      (H5.node vals []).get? "lhs_matrix" = data.map (fun x => .mat x.2) →
      (H5.node vals []).get? "options.lapack_driver" = some (putStr d) →
      (H5.node vals []).get? "num_svdmodes" = some (.int n) →
      (∀ x p, data = some x → pre = some p → L2Pre.take "_SinvPsiT" (H5.node vals []) = .ok p) →
      Tsvd.load (.node vals []) = .ok ⟨⟨some n, data, counted data pre⟩, none, d⟩ := by
    intro vals h1 h2 h3 h4 h5
    have e1 : takeModes (H5.node vals []) "num_svdmodes" = .ok n := by rw [takeModes, h4]
    have e4 : takePre data (L2Pre.take "_SinvPsiT" (H5.node vals [])) = .ok (counted data pre) := by
      cases data with
      | none => rfl
      | some x =>
        obtain ⟨p, rfl⟩ := Option.isSome_iff_exists.mp (hp rfl)
        rw [takePre, h5 x p rfl rfl]
        rfl
    rw [Tsvd.load, takeStr_put hn h3, e1, takeData_node vals data hd h1 h2]
    simp only [bind, Except.bind, e4]
    rfl
  cases data with
  | none => exact roundTrip_of _ rfl (key _ rfl rfl rfl rfl (by simp))
  | some x =>
    obtain ⟨p, rfl⟩ := Option.isSome_iff_exists.mp (hp rfl)
    exact roundTrip_of _ rfl (key _ rfl rfl rfl rfl (by rintro _ _ ⟨⟩ ⟨⟩; rfl))

/-- **C82.** Before `fit`, a `TruncatedSVDSolver` for all modes (`num_svdmodes=None`) cannot be saved, and an existing
file is destroyed by the attempt. -/
theorem C82_tsvd_all_modes (x : SolverFile (Tsvd K) K) (hm : x.solver.nmodes = none) (hn : x.opts.driver ≠ some "NULL") :
    SaveFails (Tsvd.save x) .type Tsvd.load := by
  refine saveFails_of (.node [("options.lapack_driver", putStr x.opts.driver)] []) (e' := .key) ?_ ?_
  · simp only [Tsvd.save, hm]
  · rw [Tsvd.load, takeStr_put (s := x.opts.driver) hn rfl]
    rfl

/-- **C82.** `TotalLeastSquaresSolver`. -/
theorem C82_tls (x : SolverFile (Tls K) K) (hd : DataOk x.solver.data) (hp : x.solver.data.isSome → x.solver.sol.isSome)
    (hc : x.opts.cond = none) (hn : x.opts.driver ≠ some "NULL") :
    RoundTrip (Tls.save x) Tls.load ⟨{ x.solver with sol := counted x.solver.data x.solver.sol }, x.opts⟩ := by
  obtain ⟨⟨data, pre⟩, c, d⟩ := x
  simp only at hd hp hc hn
  subst hc
  have key : ∀ vals : List (String × H5Val K), (H5.node vals []).get? "data_matrix" = data.map (fun x => .mat x.1) →
      (H5.node vals []).get? "lhs_matrix" = data.map (fun x => .mat x.2) →
      (H5.node vals []).get? "options.lapack_driver" = some (putStr d) →
      (∀ x p, data = some x → pre = some p → takeSol (H5.node vals []) = .ok p) →
      Tls.load (.node vals []) = .ok ⟨⟨data, counted data pre⟩, none, d⟩ := by
    intro vals h1 h2 h3 h5
    have e4 : takePre data (takeSol (H5.node vals [])) = .ok (counted data pre) := by
      cases data with
      | none => rfl
      | some x =>
        obtain ⟨p, rfl⟩ := Option.isSome_iff_exists.mp (hp rfl)
        rw [takePre, h5 x p rfl rfl]
        rfl
    rw [Tls.load, takeStr_put hn h3, takeData_node vals data hd h1 h2]
    simp only [bind, Except.bind, e4]
    rfl
  cases data with
  | none => exact roundTrip_of _ rfl (key _ rfl rfl rfl (by simp))
  | some x =>
    obtain ⟨p, rfl⟩ := Option.isSome_iff_exists.mp (hp rfl)
    exact roundTrip_of _ rfl (key _ rfl rfl rfl (by rintro _ _ ⟨⟩ ⟨⟩; rfl))

/-! ### Copies, results, and when the hypotheses hold -/

/-- **C82.** `copy()` gives the same solver as saving and loading, and raises after a failed `fit`. -/
theorem C82_copy :
    (∀ (R : Type) (s : L2 R K), (s.data.isSome → s.pre.isSome) → s.copy = .ok { s with pre := counted s.data s.pre }) ∧
    (∀ (R : Type) (s : Tik R K), (s.data.isSome → s.pre.isSome) → s.copy = .ok { s with pre := counted s.data s.pre }) ∧
    (∀ s : Tsvd K, (s.data.isSome → s.pre.isSome) → s.copy = .ok { s with pre := counted s.data s.pre }) ∧
    (∀ s : Tls K, (s.data.isSome → s.sol.isSome) → s.copy = .ok { s with sol := counted s.data s.sol }) := by
  refine ⟨?_, ?_, ?_, ?_⟩
  · rintro R ⟨reg, data, pre⟩ h
    cases data with
    | none => rfl
    | some x => obtain ⟨p, rfl⟩ := Option.isSome_iff_exists.mp (h rfl); rfl
  · rintro R ⟨reg, m, data, pre⟩ h
    cases data with
    | none => rfl
    | some x => obtain ⟨p, rfl⟩ := Option.isSome_iff_exists.mp (h rfl); rfl
  · rintro ⟨n, data, pre⟩ h
    cases data with
    | none => rfl
    | some x => obtain ⟨p, rfl⟩ := Option.isSome_iff_exists.mp (h rfl); rfl
  · rintro ⟨data, pre⟩ h
    cases data with
    | none => rfl
    | some x => obtain ⟨p, rfl⟩ := Option.isSome_iff_exists.mp (h rfl); rfl

/-- **C82.** The loaded or copied solver solves the same problem: the results of `solve()` agree. -/
theorem C82_same_solution [Field K] [DecidableEq K] (lstsq posSolve : Mat K → Mat K → Except Err (Mat K)) (junk : K) :
    (∀ s : L2 K K, ({ s with pre := counted s.data s.pre } : L2 K K).solve = s.solve) ∧
    (∀ s : L2 (List K) K, ({ s with pre := counted s.data s.pre } : L2 (List K) K).solveDec = s.solveDec) ∧
    (∀ s : Tik (Mat K) K, ({ s with pre := counted s.data s.pre } : Tik (Mat K) K).solve lstsq posSolve =
      s.solve lstsq posSolve) ∧
    (∀ s : Tik (List (Mat K)) K, ({ s with pre := counted s.data s.pre } : Tik (List (Mat K)) K).solveDec junk lstsq posSolve =
      s.solveDec junk lstsq posSolve) ∧
    (∀ s : Tsvd K, ({ s with pre := counted s.data s.pre } : Tsvd K).solve = s.solve) ∧
    (∀ s : Tls K, ({ s with sol := counted s.data s.sol } : Tls K).solve = s.solve) := by
  refine ⟨?_, ?_, ?_, ?_, ?_, ?_⟩
  · rintro ⟨reg, data, pre⟩
    cases data with
    | none => simp [L2.solve]
    | some x => rfl
  · rintro ⟨reg, data, pre⟩
    cases data with
    | none => simp [L2.solveDec]
    | some x => rfl
  · rintro ⟨reg, m, data, pre⟩
    cases data with
    | none => simp [Tik.solve]
    | some x => rfl
  · rintro ⟨reg, m, data, pre⟩
    cases data with
    | none => simp [Tik.solveDec]
    | some x => rfl
  · rintro ⟨n, data, pre⟩
    cases data with
    | none => simp [Tsvd.solve]
    | some x => rfl
  · rintro ⟨data, pre⟩
    cases data with
    | none => simp [Tls.solve]
    | some x => rfl

theorem templateFit_aligned {A B : NdArg K} {D Z : Mat K} (h : templateFit A B = .ok (D, Z)) : Z.ncols = D.nrows := by
  cases A with
  | mat A =>
    cases B with
    | vec z =>
      simp only [templateFit] at h
      split at h
      · cases h
      · rename_i h1; cases h; simpa using h1
    | mat B =>
      simp only [templateFit] at h
      split at h
      · cases h
      · rename_i h1; cases h; simpa using h1
    | other => cases h
  | vec z => cases h
  | other => cases h

/-- **C82.** After a successful `fit` the solvers can be saved, and the number of modes is set. -/
theorem C82_fit_savable [Field K] (svd : Mat K → Except Err (Svd K)) (solve : Mat K → Mat K → Except Err (Mat K)) (D Z : NdArg K) :
    (∀ s s' : Plain K, s.fit D Z = (s', .ok ()) → DataOk s'.data) ∧
    (∀ (R : Type) (s s' : L2 R K), s.fit svd D Z = (s', .ok ()) → DataOk s'.data ∧ s'.pre.isSome ∧ s'.reg = s.reg) ∧
    (∀ (R : Type) (sh : Nat → Nat → R → Except Err Unit) (s s' : Tik R K), s.fit sh D Z = (s', .ok ()) →
      DataOk s'.data ∧ s'.pre.isSome ∧ s'.reg = s.reg) ∧
    (∀ s s' : Tsvd K, s.fit svd D Z = (s', .ok ()) → DataOk s'.data ∧ s'.pre.isSome ∧ s'.nmodes.isSome) ∧
    (∀ s s' : Tls K, s.fit svd solve D Z = (s', .ok ()) → DataOk s'.data ∧ s'.sol.isSome) := by
  have hdata : ∀ D' Z' : Mat K, templateFit D Z = .ok (D', Z') → DataOk (some (D', Z')) := by
    intro D' Z' h A B hAB
    cases hAB
    exact templateFit_aligned h
  refine ⟨?_, ?_, ?_, ?_, ?_⟩
  · intro s s' h
    rw [Plain.fit] at h
    split at h
    · cases h
    · rename_i x hx; cases h; exact hdata _ _ hx
  · intro R s s' h
    rw [L2.fit] at h
    split at h
    · cases h
    · rename_i D' Z' hx
      simp only at h
      split at h
      · cases h
      · cases h; exact ⟨hdata _ _ hx, rfl, rfl⟩
  · intro R sh s s' h
    rw [Tik.fit] at h
    split at h
    · cases h
    · rename_i D' Z' hx
      simp only at h
      split at h
      · cases h
      · cases h; exact ⟨hdata _ _ hx, rfl, rfl⟩
  · intro s s' h
    rw [Tsvd.fit] at h
    split at h
    · cases h
    · rename_i D' Z' hx
      simp only at h
      split at h
      · cases h
      · cases h; exact ⟨hdata _ _ hx, rfl, rfl⟩
  · intro s s' h
    rw [Tls.fit] at h
    split at h
    · cases h
    · rename_i D' Z' hx
      simp only at h
      split at h
      · cases h
      · split at h
        · cases h
        · split at h
          · cases h
          · cases h; exact ⟨hdata _ _ hx, rfl⟩

/-- **C82.** After a `fit` that failed in the first decomposition, neither saving nor copying is possible. -/
theorem C82_failed_fit [Zero K] [LinearOrder K] (data : Mat K × Mat K) (hd : DataOk (some data)) (d : Option String)
    (hn : d ≠ some "NULL") (reg : Option K) (hr : ∀ a ∈ reg, 0 ≤ a) :
    SaveFails (L2.save ⟨⟨reg, some data, none⟩, none, d⟩) .attribute L2.load ∧
      (L2.mk reg (some data) none).copy = .error .attribute := by
  refine ⟨?_, rfl⟩
  have e3 : L2.construct reg = .ok ⟨reg, none, none⟩ := by
    cases reg with
    | none => rfl
    | some a => simp [L2.construct, L2.setReg, not_lt.mpr (hr a rfl)]
  cases reg with
  | none =>
    refine saveFails_of _ (e' := .key) rfl ?_
    rw [L2.load, takeStr_put (s := d) hn rfl, takeData_node _ (some data) hd rfl rfl]
    rfl
  | some a =>
    refine saveFails_of _ (e' := .key) rfl ?_
    rw [L2.load, takeStr_put (s := d) hn rfl, takeData_node _ (some data) hd rfl rfl]
    change (L2.construct (some a)).bind _ = _
    rw [e3]
    rfl

/-! ### Histories -/

section
variable [Field K] [LinearOrder K]

theorem l2_run_inv (svd : Mat K → Except Err (Svd K)) (ops : List (L2Op K)) (hok : ∀ op ∈ ops, op.svdOk svd) (s : L2 K K)
    (h1 : s.Cons svd) (h2 : ∀ a ∈ s.reg, 0 ≤ a) :
    (s.run svd ops).Cons svd ∧ ∀ a ∈ (s.run svd ops).reg, 0 ≤ a := by
  induction ops generalizing s with
  | nil => exact ⟨h1, h2⟩
  | cons op ops ih =>
    have h3 : (s.step svd op).1.Cons svd := (h1.step op (hok op mem_cons_self)).1
    refine ih (fun o ho => hok o (mem_cons_of_mem _ ho)) _ h3 ?_
    cases op with
    | setReg x =>
      cases x with
      | none => simp [L2.step, L2.setReg]
      | some a =>
        simp only [L2.step, L2.setReg]
        split
        · exact h2
        · rename_i ha; rintro b ⟨⟩; exact not_lt.mp ha
    | setRegNonScalar => exact h2
    | fit D Z =>
      simp only [L2.step, L2.fit]
      split
      · exact h2
      · split
        · exact h2
        · exact h2
    | reset => simp [L2.step, L2.reset]

/-- **C82.** An `L2Solver` can be saved and loaded after every history of operations, including failing ones, in which
the decompositions succeed; the loaded solver gives the same solution. -/
theorem C82_l2_history (svd : Mat K → Except Err (Svd K)) (ops : List (L2Op K)) (hok : ∀ op ∈ ops, op.svdOk svd)
    (d : Option String) (hn : d ≠ some "NULL") :
    ∃ s' : L2 K K, RoundTrip (L2.save ⟨(L2.mk none none none).run svd ops, none, d⟩) L2.load ⟨s', none, d⟩ ∧
      s'.solve = ((L2.mk none none none).run svd ops).solve ∧ s'.reg = ((L2.mk none none none).run svd ops).reg ∧
      s'.data = ((L2.mk none none none).run svd ops).data := by
  obtain ⟨h1, h2⟩ := l2_run_inv svd ops hok ⟨none, none, none⟩ (by rintro D Z ⟨⟩) (by rintro a ⟨⟩)
  generalize (L2.mk none none none).run svd ops = s at *
  refine ⟨{ s with pre := counted s.data s.pre }, C82_l2 ⟨s, none, d⟩ (fun D Z h => (h1 D Z h).1) ?_ h2 rfl hn,
    (C82_same_solution (fun _ _ => .error .linalg) (fun _ _ => .error .linalg) 0).1 s, rfl, rfl⟩
  intro h
  obtain ⟨⟨D, Z⟩, hx⟩ := Option.isSome_iff_exists.mp h
  obtain ⟨-, u, -, hu⟩ := h1 D Z hx
  simp [hu]

/-- **C82.** The same for a `TikhonovSolver`, unless a `fit` was refused because of the shape of the regularizer. -/
theorem C82_tikhonov_history (lstsq posSolve : Mat K → Mat K → Except Err (Mat K)) (ops : List (TikOp K)) (m : TikMethod)
    (hok : Tik.fitsOk ⟨none, m, none, none⟩ ops) (o : Opts K) (hn : o.driver ≠ some "NULL") :
    ∃ s' : Tik (Mat K) K, RoundTrip (Tik.save ⟨(Tik.mk none m none none).run ops, o⟩) Tik.load ⟨s', o⟩ ∧
      s'.solve lstsq posSolve = ((Tik.mk none m none none).run ops).solve lstsq posSolve ∧
      s'.reg = ((Tik.mk none m none none).run ops).reg ∧ s'.method = ((Tik.mk none m none none).run ops).method ∧
      s'.data = ((Tik.mk none m none none).run ops).data := by
  have key : ∀ t : Tik (Mat K) K, t.Cons → t.fitsOk ops → (t.run ops).Cons := by
    clear hok
    induction ops with
    | nil => exact fun t h _ => h
    | cons op ops ih => exact fun t h hok => ih _ (h.step op hok.1) hok.2
  have h1 := key ⟨none, m, none, none⟩ (by rintro D Z ⟨⟩) hok
  generalize (Tik.mk none m none none).run ops = s at *
  refine ⟨{ s with pre := counted s.data s.pre }, C82_tikhonov ⟨s, o⟩ (fun D Z h => (h1 D Z h).1) ?_ hn,
    (C82_same_solution lstsq posSolve 0).2.2.1 s, rfl, rfl, rfl⟩
  intro h
  obtain ⟨⟨D, Z⟩, hx⟩ := Option.isSome_iff_exists.mp h
  simp [(h1 D Z hx).2]

end

/-! ### Examples -/

/-- A trained `L2Solver` with three rows of data. -/
def exStored : SolverFile (L2 ℚ ℚ) ℚ :=
  ⟨⟨some (1 / 2), some (⟨1, 1, [[2]]⟩, ⟨1, 1, [[3]]⟩), some ⟨[2], ⟨1, 1, [[3]]⟩, ⟨1, 1, [[1]]⟩⟩⟩, none, some "gesdd"⟩

example : RoundTrip (L2.save exStored) L2.load exStored :=
  C82_l2 exStored (by rintro D Z ⟨⟩; rfl) (fun _ => rfl) (by rintro a ⟨⟩; norm_num) rfl (by decide)

/-- Two regularizers of different shapes, as accepted before `fit`. -/
example : ((Tik.mk none .lstsq none none : Tik (List (Mat ℚ)) ℚ).setRegs (some [.diag [1], .diag [1, 2]])).2 = .ok () ∧
    ((Tik.mk none .lstsq none none : Tik (List (Mat ℚ)) ℚ).setRegs (some [.diag [1], .diag [1, 2]])).1.reg =
      some [⟨1, 1, [[1]]⟩, ⟨2, 2, [[1, 0], [0, 2]]⟩] ∧
    ¬ SameShapes [(⟨1, 1, [[1]]⟩ : Mat ℚ), ⟨2, 2, [[1, 0], [0, 2]]⟩] := by
  refine ⟨by decide +kernel, by decide +kernel, ?_⟩
  rw [← uniformShapes_iff]
  decide

/-- The driver name "NULL" is read as `None`. -/
example : (Plain.load (Plain.save (⟨⟨none⟩, none, some "NULL"⟩ : SolverFile (Plain ℚ) ℚ)).1) = .ok ⟨⟨none⟩, none, none⟩ := by
  decide +kernel

/-- A file that `C82_tikhonov_method` is about. -/
example : loadFile (K := ℚ) (fun _ => some (.node [("method", .str "svd")] [])) "f" Tik.load = .error .loadfileFormat :=
  ((C82_tikhonov_method _).2.2 "svd" rfl (by decide) (by decide) _ "f" rfl).1

end Opinf
