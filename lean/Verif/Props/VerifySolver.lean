import Verif.Model.VerifySolver
import Verif.Props.VerifyOp
import Verif.Props.SolverIO

/-!
# C96: `verify()` of least-squares solvers

What acceptance means for solvers of any class (`C96_accepted_iff`), what happens to the files, and that the solvers of
the package are accepted after `fit()` whenever `solve()` works (`C96_fitted`).
-/

namespace Opinf

open List

variable {K S : Type}

/-! ### What is checked -/

/-- The arrays have the same shape and their entries agree up to the tolerances of `numpy.allclose`. -/
def Mat.NearMat [Field K] [LinearOrder K] (A O : Mat K) : Prop :=
  A.nrows = O.nrows ∧ A.ncols = O.ncols ∧ Forall₂ (Forall₂ NearTo) A.rows O.rows

/-- `y` has the dimensions of `x`, and its solution is close to `O`. -/
def LsqI.Agrees [Field K] [LinearOrder K] (I : LsqI K S) (x y : S) (O : Mat K) : Prop :=
  I.dims y = I.dims x ∧ ∃ A, I.solve y = .ok (.mat A) ∧ A.NearMat O

/-- One of the methods called in the last part of the check is not implemented. -/
def LsqI.Missing (I : LsqI K S) (y : S) (fs : FS K) (path : String) : Prop :=
  (I.save y fs path).2 = .error .notImplemented ∨ ∃ fs', I.save y fs path = (fs', .ok ()) ∧
    (I.load y fs' path = .error .notImplemented ∨
      ∃ z, I.load y fs' path = .ok z ∧ I.dims z = I.dims y ∧ I.solve z = .error .notImplemented)

section Accept

variable [Field K] [LinearOrder K] [IsStrictOrderedRing K]

omit [Field K] [LinearOrder K] [IsStrictOrderedRing K] in
theorem nanFails_iff {α : Type} {x : Except Err α} {a : α} : nanFails x = .ok a ↔ x = .ok a := by
  cases x with
  | error e => cases e <;> simp [nanFails]
  | ok b => simp [nanFails]

theorem closeRows_iff {A O : List (List K)} : closeRows A O = true ↔ Forall₂ (Forall₂ NearTo) A O :=
  ⟨closeRows_near, near_closeRows⟩

theorem compareOhat_iff {O : Mat K} {a : NdArg K} :
    compareOhat O a = .ok () ↔ ∃ A, a = .mat A ∧ A.NearMat O := by
  cases a with
  | vec xs => simp [compareOhat]
  | other => simp [compareOhat]
  | mat A =>
    simp only [compareOhat, NdArg.mat.injEq, exists_eq_left', Mat.NearMat]
    split
    · rename_i h
      rw [insist_iff, closeRows_iff]
      exact ⟨fun h' => ⟨h.1, h.2, h'⟩, fun h' => h'.2.2⟩
    · rename_i h
      simp only [reduceCtorEq, false_iff]
      exact fun h' => h ⟨h'.1, h'.2.1⟩

theorem checkEqual_iff {I : LsqI K S} {x y : S} {O : Mat K} : I.checkEqual x y O = .ok () ↔ I.Agrees x y O := by
  simp only [LsqI.checkEqual, exBind_iff, exists_unit_iff, insist_iff, nanFails_iff, compareOhat_iff, LsqI.Agrees,
    beq_iff_eq]
  constructor
  · rintro ⟨h1, a, h2, A, rfl, h3⟩
    exact ⟨h1.symm, A, h2, h3⟩
  · rintro ⟨h1, A, h2, h3⟩
    exact ⟨h1.symm, _, h2, A, rfl, h3⟩

omit [Field K] [LinearOrder K] [IsStrictOrderedRing K] in
theorem asShape_iff {r d : Nat} {a : NdArg K} {O : Mat K} :
    asShape r d a = .ok O ↔ a = .mat O ∧ O.nrows = r ∧ O.ncols = d := by
  cases a with
  | vec xs => simp [asShape]
  | other => simp [asShape]
  | mat A =>
    simp only [asShape]
    split
    · rename_i h
      constructor
      · rintro ⟨⟩; exact ⟨rfl, h⟩
      · rintro ⟨⟨⟩, -⟩; rfl
    · rename_i h
      simp only [reduceCtorEq, false_iff]
      rintro ⟨⟨⟩, h'⟩
      exact h h'

theorem checkSolve_iff {I : LsqI K S} {x y : S} {r d : Nat} {O : Mat K} :
    I.checkSolve x r d = .ok (y, O) ↔ I.solve x = .ok (.mat O) ∧ O.nrows = r ∧ O.ncols = d ∧ I.copy x = .ok y ∧
      I.sameClass y x = true ∧ I.Agrees x y O := by
  simp only [LsqI.checkSolve, LsqI.checkCopy, exBind_iff, exists_unit_iff, insist_iff, nanFails_iff, asShape_iff,
    checkEqual_iff, pure, Except.pure, Except.ok.injEq, Prod.mk.injEq]
  constructor
  · rintro ⟨a, h1, O', ⟨rfl, h2, h3⟩, y', ⟨y'', h4, h5, h6, rfl⟩, rfl, rfl⟩
    exact ⟨h1, h2, h3, h4, h5, h6⟩
  · rintro ⟨h1, h2, h3, h4, h5, h6⟩
    exact ⟨_, h1, O, ⟨rfl, h2, h3⟩, y, ⟨y, h4, h5, h6, rfl⟩, rfl, rfl⟩

omit [Field K] [LinearOrder K] [IsStrictOrderedRing K] in
theorem unlessMissing_iff {x : Except Err Unit} : unlessMissing x = .ok () ↔ x = .ok () ∨ x = .error .notImplemented := by
  cases x with
  | error e => cases e <;> simp [unlessMissing]
  | ok u => simp [unlessMissing]

theorem checkEqual_missing {I : LsqI K S} {x y : S} {O : Mat K} :
    I.checkEqual x y O = .error .notImplemented ↔ I.dims y = I.dims x ∧ I.solve y = .error .notImplemented := by
  simp only [LsqI.checkEqual, insist]
  by_cases h : I.dims x = I.dims y
  · simp only [h, BEq.rfl, if_true, bind, Except.bind, true_and]
    cases hs : I.solve y with
    | error e => cases e <;> simp [nanFails]
    | ok a =>
      cases a with
      | vec xs => simp [nanFails, compareOhat]
      | other => simp [nanFails, compareOhat]
      | mat A =>
        simp only [nanFails, compareOhat, reduceCtorEq, iff_false]
        split
        · rw [insist]; split <;> simp
        · simp
  · have : ¬ I.dims y = I.dims x := fun h' => h h'.symm
    simp [h, this, bind, Except.bind]

theorem checkFile_iff {I : LsqI K S} {y : S} {O : Mat K} {path : String} {fs : FS K} :
    (I.checkFile y O path fs).2 = .ok () ↔ I.Missing y fs path ∨
      ∃ fs' z, I.save y fs path = (fs', .ok ()) ∧ I.load y fs' path = .ok z ∧ I.Agrees y z O := by
  obtain ⟨fs', w, hw⟩ : ∃ fs' w, I.save y fs path = (fs', w) := ⟨_, _, rfl⟩
  cases w with
  | error e =>
    simp only [LsqI.checkFile, LsqI.Missing, hw, unlessMissing_iff, reduceCtorEq, false_or, Prod.mk.injEq, and_false,
      false_and, exists_false, or_false]
  | ok u =>
    simp only [LsqI.checkFile, LsqI.Missing, hw, unlessMissing_iff, reduceCtorEq, false_or, Prod.mk.injEq, and_true,
      exists_eq_left', LsqI.checkLoaded]
    cases hl : I.load y fs' path with
    | error e => simp [bind, Except.bind, hl]
    | ok z =>
      simp only [bind, Except.bind, checkEqual_iff, checkEqual_missing, reduceCtorEq, false_or, Except.ok.injEq,
        exists_eq_left']
      constructor
      · rintro (h | h)
        · exact .inr ⟨fs', z, rfl, hl, h⟩
        · exact .inl h
      · rintro (h | ⟨_, z', rfl, h1, h2⟩)
        · exact .inr h
        · rw [hl] at h1
          cases h1
          exact .inl h2

/-- **C96.** A trained solver of any class is accepted if and only if `solve()` returns an array of shape `(r, d)`,
`copy()` returns a solver of the same class with the same dimensions and, up to the tolerances, the same solution, and,
unless `save()`, `load()` or the `solve()` of the loaded solver is not implemented, so does loading the saved copy. -/
theorem C96_accepted_iff (I : LsqI K S) (x : S) (fs : FS K) {r d k : Nat} (hx : I.dims x = some (r, d, k)) :
    (I.verify x fs).2 = .ok () ↔ ∃ O y, I.solve x = .ok (.mat O) ∧ O.nrows = r ∧ O.ncols = d ∧ I.copy x = .ok y ∧
      I.sameClass y x = true ∧ I.Agrees x y O ∧ (I.Missing y fs lsqTempFile ∨
        ∃ fs' z, I.save y fs lsqTempFile = (fs', .ok ()) ∧ I.load y fs' lsqTempFile = .ok z ∧ I.Agrees y z O) := by
  simp only [LsqI.verify, hx]
  constructor
  · intro h
    cases hc : I.checkSolve x r d with
    | error e => rw [hc] at h; cases h
    | ok p =>
      obtain ⟨y, O⟩ := p
      rw [hc] at h
      obtain ⟨h1, h2, h3, h4, h5, h6⟩ := checkSolve_iff.1 hc
      exact ⟨O, y, h1, h2, h3, h4, h5, h6, checkFile_iff.1 h⟩
  · rintro ⟨O, y, h1, h2, h3, h4, h5, h6, h7⟩
    rw [checkSolve_iff.2 ⟨h1, h2, h3, h4, h5, h6⟩]
    exact checkFile_iff.2 h7

omit [IsStrictOrderedRing K] in
/-- **C96.** Without training, nothing happens. -/
theorem C96_untrained (I : LsqI K S) (x : S) (fs : FS K) (hx : I.dims x = none) : I.verify x fs = (fs, .ok ()) := by
  simp [LsqI.verify, hx]

omit [IsStrictOrderedRing K] in
/-- **C96.** Whatever the outcome, there is no file `_solververification.h5` after the verification of a trained solver,
and if `save()` writes to no other file, all other files are as before. -/
theorem C96_files (I : LsqI K S) (x : S) (fs : FS K) (hx : (I.dims x).isSome) :
    (I.verify x fs).1 "_solververification.h5" = none ∧
    ((∀ y fs p, p ≠ "_solververification.h5" → (I.save y fs "_solververification.h5").1 p = fs p) →
      ∀ p, p ≠ "_solververification.h5" → (I.verify x fs).1 p = fs p) := by
  obtain ⟨⟨r, d, k⟩, hd⟩ := Option.isSome_iff_exists.1 hx
  simp only [LsqI.verify, hd]
  cases hc : I.checkSolve x r d with
  | error e =>
    refine ⟨by simp [FS.remove, lsqTempFile], fun _ p hp => ?_⟩
    simp [FS.remove, lsqTempFile, hp]
  | ok q =>
    refine ⟨by simp [FS.remove, lsqTempFile], fun h p hp => ?_⟩
    have : (I.checkFile q.1 q.2 lsqTempFile fs).1 = (I.save q.1 fs lsqTempFile).1 := by
      rw [LsqI.checkFile]
      obtain ⟨fs', w, hw⟩ : ∃ fs' w, I.save q.1 fs lsqTempFile = (fs', w) := ⟨_, _, rfl⟩
      rw [hw]
      cases w <;> rfl
    simp only [FS.remove, lsqTempFile, hp, if_false]
    rw [show ("_solververification.h5" : String) = lsqTempFile from rfl, this]
    exact h _ _ p hp

end Accept

/-! ### The solvers of the package -/

/-- `verify()` accepts if `solve()` works, and otherwise raises its exception, or VerificationError if the solution
has NaN entries; the temporary file is removed in any case. -/
def LsqI.DecidedBySolve [Field K] [LinearOrder K] (I : LsqI K S) (x : S) : Prop := ∀ fs,
  (∀ a, I.solve x = .ok a → I.verify x fs = (fs.remove "_solververification.h5", .ok ())) ∧
  ∀ e, I.solve x = .error e → I.verify x fs = (fs.remove "_solververification.h5",
    .error (if e = .nonfinite then .verification else e))

section Builtin

variable [Field K] [LinearOrder K] [IsStrictOrderedRing K]

omit [IsStrictOrderedRing K] in
theorem agrees_self [IsStrictOrderedRing K] {I : LsqI K S} {x : S} {O : Mat K} (h : I.solve x = .ok (.mat O)) :
    I.Agrees x x O :=
  ⟨rfl, O, h, rfl, rfl, closeRows_iff.1 (closeRows_self O.rows)⟩

theorem decided_of (data : S → Option (Mat K × Mat K)) (solve : SolverFile S K → Except Err (Mat K))
    (copy : S → Except Err S) (save : SolverFile S K → Saved K) (load : H5 K → Except Err (SolverFile S K))
    (x : SolverFile S K) {D Z : Mat K} (hD : data x.solver = some (D, Z)) (hc : copy x.solver = .ok x.solver)
    (hr : RoundTrip (save x) load x) (hs : ∀ O, solve x = .ok O → O.nrows = Z.nrows ∧ O.ncols = D.ncols) :
    (fileLsqI data solve copy save load).DecidedBySolve x := by
  intro fs
  have hdims : (fileLsqI data solve copy save load).dims x = some (Z.nrows, D.ncols, D.nrows) := by
    simp [fileLsqI, hD, dataDims]
  obtain ⟨fs', w, h1, h2, h3⟩ := hr fs lsqTempFile true (.inr rfl)
  have hcopy : (fileLsqI data solve copy save load).copy x = .ok x := by
    simp [fileLsqI, hc, Except.map]
  have hsave : (fileLsqI data solve copy save load).save x fs lsqTempFile = (fs', .ok ()) := by
    simp [fileLsqI, h1]
  have hload : (fileLsqI data solve copy save load).load x fs' lsqTempFile = .ok x := by
    simp [fileLsqI, h2]
  constructor
  · intro a ha
    cases hO : solve x with
    | error e => simp [fileLsqI, hO, Except.map] at ha
    | ok O =>
      have hsol : (fileLsqI data solve copy save load).solve x = .ok (.mat O) := by
        simp [fileLsqI, hO, Except.map]
      obtain ⟨e1, e2⟩ := hs O hO
      have hcs := checkSolve_iff.2 ⟨hsol, e1, e2, hcopy, rfl, agrees_self hsol⟩
      have hfile := (checkFile_iff (path := lsqTempFile) (fs := fs)).2
        (.inr ⟨fs', x, hsave, hload, agrees_self hsol⟩)
      simp only [LsqI.verify, hdims, hcs]
      refine Prod.ext ?_ hfile
      simp only [LsqI.checkFile, hsave]
      funext p
      by_cases hp : p = lsqTempFile
      · simp [FS.remove, hp, lsqTempFile]
      · simp only [FS.remove, hp, if_false, h3 p hp]
        rw [if_neg (show ¬ p = "_solververification.h5" from hp)]
  · intro e he
    simp only [LsqI.verify, hdims, LsqI.checkSolve, he, bind, Except.bind]
    cases e <;> rfl

/-- A library routine for systems of equations returns an array with one column per right-hand side. -/
def SolvesShape (solve : Mat K → Mat K → Except Err (Mat K)) : Prop :=
  ∀ A B X, solve A B = .ok X → X.nrows = A.ncols ∧ X.ncols = B.ncols

omit [Field K] [LinearOrder K] [IsStrictOrderedRing K] in
theorem templateFit_copy {D Z : Mat K} (h : Z.ncols = D.nrows) :
    (Plain.mk (some (D, Z))).copy = .ok ⟨some (D, Z)⟩ := by
  simp [Plain.copy, templateFit_stored h, Except.map]

/-- **C96** for `PlainSolver`. -/
theorem C96_plain (lstsq : Opts K → Mat K → Mat K → Except Err (Mat K)) (hl : ∀ o, SolvesShape (lstsq o))
    (s s' : Plain K) (D Z : NdArg K) (hf : s.fit D Z = (s', .ok ())) (o : Opts K) (hn : o.driver ≠ some "NULL") :
    (plainLsqI lstsq).DecidedBySolve ⟨s', o⟩ := by
  have hD := (C82_fit_savable (fun _ => .error .linalg) (fun _ _ => .error .linalg) D Z).1 s s' hf
  rw [Plain.fit] at hf
  split at hf
  · cases hf
  · rename_i x hx
    cases hf
    obtain ⟨A, B⟩ := x
    refine decided_of _ _ _ _ _ _ (D := A) (Z := B) rfl (templateFit_copy (hD A B rfl)) (C82_plain _ hD hn) ?_
    intro O hO
    simp only [Plain.solve, exBind_iff] at hO
    obtain ⟨X, h1, h2⟩ := hO
    cases h2
    obtain ⟨e1, e2⟩ := hl _ _ _ _ h1
    exact ⟨by simp [Mat.t, e2], by simp [Mat.t, e1]⟩

omit [IsStrictOrderedRing K] in
/-- What a fitted `L2Solver` or `L2DecoupledSolver` holds. -/
theorem l2_fitted {R : Type} {svd : Mat K → Except Err (Svd K)}
    (hsvd : ∀ D u, svd D = .ok u → u.PsiT.ncols = D.ncols) {s s' : L2 R K} {D Z : NdArg K}
    (hf : s.fit svd D Z = (s', .ok ())) :
    ∃ A B p, s' = ⟨s.reg, some (A, B), some p⟩ ∧ B.ncols = A.nrows ∧ p.ZPhi.nrows = B.nrows ∧ p.PsiT.ncols = A.ncols := by
  rw [L2.fit] at hf
  split at hf
  · cases hf
  · rename_i A B hx
    simp only at hf
    split at hf
    · cases hf
    · rename_i u hu
      cases hf
      exact ⟨A, B, _, rfl, templateFit_aligned hx, rfl, hsvd _ _ hu⟩

/-- **C96** for `L2Solver`. -/
theorem C96_l2 (svd : Mat K → Except Err (Svd K)) (hsvd : ∀ D u, svd D = .ok u → u.PsiT.ncols = D.ncols)
    (s s' : L2 K K) (D Z : NdArg K) (hf : s.fit svd D Z = (s', .ok ())) (hreg : ∀ a ∈ s.reg, 0 ≤ a)
    (driver : Option String) (hn : driver ≠ some "NULL") : l2LsqI.DecidedBySolve ⟨s', ⟨none, driver⟩⟩ := by
  obtain ⟨A, B, p, rfl, h1, h2, h3⟩ := l2_fitted hsvd hf
  refine decided_of _ _ _ _ _ _ (D := A) (Z := B) rfl rfl
    (C82_l2 _ (by rintro _ _ ⟨⟩; exact h1) (fun _ => rfl) hreg rfl hn) ?_
  intro O hO
  simp only [L2.solve] at hO
  cases hr : s.reg with
  | none => rw [hr] at hO; cases hO
  | some lam =>
    rw [hr] at hO
    simp only at hO
    split at hO
    · cases hO
    · cases hO; exact ⟨h2, h3⟩

/-- **C96** for `L2DecoupledSolver`. -/
theorem C96_l2_decoupled (svd : Mat K → Except Err (Svd K)) (hsvd : ∀ D u, svd D = .ok u → u.PsiT.ncols = D.ncols)
    (s s' : L2 (List K) K) (D Z : NdArg K) (hf : s.fitDec svd D Z = (s', .ok ()))
    (hreg : ∀ v ∈ s.reg, ∀ a ∈ v, 0 ≤ a) (driver : Option String) (hn : driver ≠ some "NULL") :
    l2DecLsqI.DecidedBySolve ⟨s', ⟨none, driver⟩⟩ := by
  rw [L2.fitDec] at hf
  split at hf
  · cases hf
  · rename_i s1 h1
    obtain ⟨A, B, p, rfl, h2, h3, h4⟩ := l2_fitted hsvd h1
    have hs : s' = ⟨s.reg, some (A, B), some p⟩ ∧ ∀ v ∈ s.reg, v.length = B.nrows := by
      cases hr : s.reg with
      | none =>
        rw [hr] at hf
        cases hf
        exact ⟨rfl, by rintro _ ⟨⟩⟩
      | some v =>
        rw [hr] at hf
        simp only at hf
        split at hf
        · cases hf
        · rename_i hv
          cases hf
          refine ⟨rfl, ?_⟩
          rintro _ ⟨⟩
          simpa using hv
    obtain ⟨rfl, hlen⟩ := hs
    refine decided_of _ _ _ _ _ _ (D := A) (Z := B) rfl rfl
      (C82_l2_decoupled _ (by rintro _ _ ⟨⟩; exact h2) (fun _ => rfl) hreg rfl hn) ?_
    intro O hO
    simp only [L2.solveDec] at hO
    cases hr : s.reg with
    | none => rw [hr] at hO; cases hO
    | some v =>
      rw [hr] at hO
      have := hlen v hr
      simp only at hO
      split at hO
      · cases hO
      · rw [if_pos (by omega)] at hO
        cases hO
        exact ⟨h3, h4⟩

omit [IsStrictOrderedRing K] [LinearOrder K] in
/-- What a fitted `TikhonovSolver` or `TikhonovDecoupledSolver` holds. -/
theorem tik_fitted {R : Type} {shape : Nat → Nat → R → Except Err Unit} {s s' : Tik R K} {D Z : NdArg K}
    (hf : s.fit shape D Z = (s', .ok ())) :
    ∃ A B, s' = ⟨s.reg, s.method, some (A, B), some (tikPre A B)⟩ ∧ B.ncols = A.nrows ∧
      ∀ G ∈ s.reg, shape B.nrows A.ncols G = .ok () := by
  rw [Tik.fit] at hf
  split at hf
  · cases hf
  · rename_i A B hx
    simp only at hf
    split at hf
    · cases hf
    · rename_i u hu
      cases hf
      refine ⟨A, B, rfl, templateFit_aligned hx, ?_⟩
      intro G hG
      have hG : s.reg = some G := hG
      rw [hG] at hu
      exact hu

/-- **C96** for `TikhonovSolver`. -/
theorem C96_tikhonov (lstsq posSolve : Opts K → Mat K → Mat K → Except Err (Mat K)) (hl : ∀ o, SolvesShape (lstsq o))
    (hp : ∀ o, SolvesShape (posSolve o)) (s s' : Tik (Mat K) K) (D Z : NdArg K) (hf : s.fit1 D Z = (s', .ok ()))
    (o : Opts K) (hn : o.driver ≠ some "NULL") : (tikLsqI lstsq posSolve).DecidedBySolve ⟨s', o⟩ := by
  obtain ⟨A, B, rfl, h1, h2⟩ := tik_fitted hf
  refine decided_of _ _ _ _ _ _ (D := A) (Z := B) rfl rfl
    (C82_tikhonov _ (by rintro _ _ ⟨⟩; exact h1) (fun _ => rfl) hn) ?_
  intro O hO
  simp only [Tik.solve] at hO
  cases hr : s.reg with
  | none => rw [hr] at hO; cases hO
  | some G =>
    have hG := h2 G hr
    rw [hr] at hO
    have hG : G.nrows = A.ncols ∧ G.ncols = A.ncols := by
      by_contra hc; rw [tikShape, if_neg hc] at hG; cases hG
    simp only [exBind_iff] at hO
    obtain ⟨X, h3, h4⟩ := hO
    cases h4
    cases hm : s.method with
    | lstsq =>
      simp only [hm, tikSolve, exBind_iff] at h3
      obtain ⟨P, h5, h6⟩ := h3
      have hP : P.ncols = A.ncols := by
        rw [Mat.vstack, if_pos hG.2.symm] at h5
        cases h5; rfl
      split at h6
      · simp only [bind, Except.bind] at h6
        cases h6
      · obtain ⟨e1, e2⟩ := hl _ _ _ _ h6
        exact ⟨by simp [Mat.t, e2, tikPre], by simp [Mat.t, e1, hP]⟩
    | normal =>
      simp only [hm, tikSolve, exBind_iff] at h3
      obtain ⟨P, h5, h6⟩ := h3
      have hP : P.ncols = A.ncols := by
        rw [Mat.addB, if_pos (by simp [tikPre, Mat.mul, Mat.t, hG])] at h5
        cases h5; rfl
      split at h6
      · simp only [bind, Except.bind] at h6
        cases h6
      · obtain ⟨e1, e2⟩ := hp _ _ _ _ h6
        exact ⟨by simp [Mat.t, e2, tikPre, Mat.mul], by simp [Mat.t, e1, hP]⟩

/-- **C96** for `TikhonovDecoupledSolver`. -/
theorem C96_tikhonov_decoupled (junk : K) (lstsq posSolve : Opts K → Mat K → Mat K → Except Err (Mat K))
    (s s' : Tik (List (Mat K)) K) (D Z : NdArg K) (hf : s.fitDec D Z = (s', .ok ()))
    (o : Opts K) (hn : o.driver ≠ some "NULL") : (tikDecLsqI junk lstsq posSolve).DecidedBySolve ⟨s', o⟩ := by
  obtain ⟨A, B, rfl, h1, h2⟩ := tik_fitted hf
  have hG : ∀ Gs ∈ s.reg, SameShapes Gs := by
    intro Gs hGs
    have h3 := h2 Gs hGs
    rw [tikDecShape] at h3
    split at h3
    · cases h3
    · split at h3
      · rename_i h4
        simp only [all_eq_true, decide_eq_true_eq] at h4
        intro G hG H hH
        rw [(h4 G hG).1, (h4 G hG).2, (h4 H hH).1, (h4 H hH).2]
        exact ⟨rfl, rfl⟩
      · cases h3
  refine decided_of _ _ _ _ _ _ (D := A) (Z := B) rfl rfl
    (C82_tikhonov_decoupled _ (by rintro _ _ ⟨⟩; exact h1) (fun _ => rfl) hG hn) ?_
  intro O hO
  simp only [Tik.solveDec] at hO
  cases hr : s.reg with
  | none => rw [hr] at hO; cases hO
  | some Gs =>
    rw [hr] at hO
    simp only [exBind_iff] at hO
    obtain ⟨X, h3, h4⟩ := hO
    cases h4
    exact ⟨rfl, rfl⟩

omit [IsStrictOrderedRing K] in
theorem tsvd_solve_shape {n : Int} {x : Mat K × Mat K} {p : L2Pre K} {O : Mat K}
    (h : (Tsvd.mk (some n) (some x) (some p)).solve = .ok O) : O.nrows = p.ZPhi.nrows ∧ O.ncols = p.PsiT.ncols := by
  simp only [Tsvd.solve] at h
  split at h
  · cases h
  · cases h
    exact ⟨rfl, rfl⟩

/-- **C96** for `TruncatedSVDSolver`. -/
theorem C96_tsvd (svd : Mat K → Except Err (Svd K)) (hsvd : ∀ D u, svd D = .ok u → u.PsiT.ncols = D.ncols)
    (s s' : Tsvd K) (D Z : NdArg K) (hf : s.fit svd D Z = (s', .ok ())) (driver : Option String)
    (hn : driver ≠ some "NULL") : tsvdLsqI.DecidedBySolve ⟨s', ⟨none, driver⟩⟩ := by
  obtain ⟨hD, -, hm⟩ := (C82_fit_savable svd (fun _ _ => .error .linalg) D Z).2.2.2.1 s s' hf
  rw [Tsvd.fit] at hf
  split at hf
  · cases hf
  · rename_i A B hx
    simp only at hf
    split at hf
    · cases hf
    · rename_i u hu
      cases hf
      refine decided_of _ _ _ _ _ _ (D := A) (Z := B) rfl rfl (C82_tsvd_partial _ hD (fun _ => rfl) hm rfl hn) ?_
      intro O hO
      obtain ⟨e1, e2⟩ := tsvd_solve_shape hO
      exact ⟨e1, e2.trans (hsvd _ _ hu)⟩

/-- **C96** for `TotalLeastSquaresSolver`. -/
theorem C96_tls (svd : Mat K → Except Err (Svd K)) (solve : Mat K → Mat K → Except Err (Mat K))
    (hl : SolvesShape solve) (s s' : Tls K) (D Z : NdArg K) (hf : s.fit svd solve D Z = (s', .ok ()))
    (driver : Option String) (hn : driver ≠ some "NULL") : tlsLsqI.DecidedBySolve ⟨s', ⟨none, driver⟩⟩ := by
  obtain ⟨hD, hp⟩ := (C82_fit_savable svd solve D Z).2.2.2.2 s s' hf
  rw [Tls.fit] at hf
  split at hf
  · cases hf
  · rename_i A B hx
    simp only at hf
    split at hf
    · cases hf
    · split at hf
      · cases hf
      · rename_i u hu
        split at hf
        · cases hf
        · rename_i X hX
          cases hf
          refine decided_of _ _ _ _ _ _ (D := A) (Z := B) rfl rfl (C82_tls _ hD (fun _ => rfl) rfl hn) ?_
          intro O hO
          simp only [Tls.solve] at hO
          cases hO
          obtain ⟨e1, e2⟩ := hl _ _ _ hX
          exact ⟨by simp [Mat.smul, e1, Mat.block], by simp [Mat.smul, e2, Mat.block]⟩

end Builtin

end Opinf
