import Verif.Props.VerifySolver
import Verif.Props.VerifyOpAccept

/-!
# C96: limits of `verify()` of least-squares solvers
-/

namespace Opinf

open List

variable {K S : Type}

section Limits

variable [Field K] [LinearOrder K] [IsStrictOrderedRing K]

/-- **C96, false of the code:** verifying a solver leaves the files alone. A file `_solververification.h5` of the user
is deleted by the verification of any trained solver of any class, whether it is accepted or not. -/
theorem C96_existing_file_deleted (I : LsqI K S) (x : S) (hx : (I.dims x).isSome) (h : H5 K) :
    ∃ fs : FS K, fs "_solververification.h5" = some h ∧ (I.verify x fs).1 "_solververification.h5" = none :=
  ⟨fun _ => some h, rfl, (C96_files I x _ hx).1⟩

/-- **C96, false of the code:** fitted solvers with regularizers are accepted. An `L2Solver` with regularizer zero is
refused with VerificationError after every `fit` with a data matrix that has a singular value zero. -/
theorem C96_singular_refused (svd : Mat K → Except Err (Svd K)) (hsvd : ∀ D u, svd D = .ok u → u.PsiT.ncols = D.ncols)
    (s s' : L2 K K) (D Z : Mat K) (hf : s.fit svd (.mat D) (.mat Z) = (s', .ok ())) (hreg : s.reg = some 0) {u : Svd K}
    (hu : svd D = .ok u) (h0 : 0 ∈ u.s) (driver : Option String) (hn : driver ≠ some "NULL") (fs : FS K) :
    (l2LsqI.verify ⟨s', ⟨none, driver⟩⟩ fs).2 = .error .verification := by
  have h := (C96_l2 svd hsvd s s' (.mat D) (.mat Z) hf (by rw [hreg]; rintro _ ⟨⟩; exact le_refl _) driver hn fs).2
    .nonfinite ?_
  · rw [h]; rfl
  · rw [L2.fit] at hf
    split at hf
    · cases hf
    · rename_i A B hx
      have hA : A = D := by
        simp only [templateFit] at hx
        split at hx
        · cases hx
        · cases hx; rfl
      subst hA
      simp only [hu] at hf
      cases hf
      have : (u.s.any fun x => decide (x ^ 2 + (0 : K) ^ 2 = 0)) = true := by
        rw [any_eq_true]
        exact ⟨0, h0, by simp⟩
      simp only [l2LsqI, fileLsqI, L2.solve, hreg, this, if_true, Except.map]

omit [IsStrictOrderedRing K] in
/-- **C96.** After a `fit` of an `L2Solver` that stored the data and failed in the decomposition, `verify()` raises
AttributeError. -/
theorem C96_failed_fit (reg : Option K) (data : Mat K × Mat K) (o : Opts K) (fs : FS K) :
    (l2LsqI.verify ⟨⟨reg, some data, none⟩, o⟩ fs).2 = .error .attribute := by
  obtain ⟨D, Z⟩ := data
  cases reg <;> rfl

/-- **C96.** The comparisons are absolute for small entries: if no entry of the solution exceeds `1e-8`, copies and loaded
solvers with the solution zero are accepted. -/
theorem C96_small_solution (I : LsqI K S) (x y z : S) (fs fs' : FS K) {r d k : Nat} (hx : I.dims x = some (r, d, k))
    (O A : Mat K) (hO : I.solve x = .ok (.mat O)) (hWF : O.WF) (hr : O.nrows = r) (hd : O.ncols = d)
    (hsmall : ∀ row ∈ O.rows, ∀ a ∈ row, |a| ≤ 1 / 10 ^ 8) (hA : A = ⟨r, d, replicate r (replicate d 0)⟩)
    (hcopy : I.copy x = .ok y) (hc : I.sameClass y x = true) (hy : I.dims y = some (r, d, k))
    (hys : I.solve y = .ok (.mat A)) (hsave : I.save y fs lsqTempFile = (fs', .ok ()))
    (hload : I.load y fs' lsqTempFile = .ok z) (hz : I.dims z = some (r, d, k)) (hzs : I.solve z = .ok (.mat A)) :
    (I.verify x fs).2 = .ok () := by
  have hnear : A.NearMat O := by
    subst hA hr hd
    refine ⟨rfl, rfl, ?_⟩
    have key : ∀ (rows : List (List K)), (∀ row ∈ rows, row.length = O.ncols) →
        (∀ row ∈ rows, ∀ a ∈ row, |a| ≤ 1 / 10 ^ 8) →
        Forall₂ (Forall₂ NearTo) (replicate rows.length (replicate O.ncols 0)) rows := by
      intro rows h1 h2
      induction rows with
      | nil => exact .nil
      | cons row rows ih =>
        refine .cons ?_ (ih (fun a ha => h1 a (mem_cons_of_mem _ ha)) fun a ha => h2 a (mem_cons_of_mem _ ha))
        rw [← h1 row mem_cons_self]
        have h3 := h2 row mem_cons_self
        clear h1 h2 ih
        induction row with
        | nil => exact .nil
        | cons a row ih =>
          refine .cons ?_ (ih fun b hb => h3 b (mem_cons_of_mem _ hb))
          have ha := h3 a mem_cons_self
          have : (0 : K) ≤ 1 / 10 ^ 5 * |a| := mul_nonneg (by positivity) (abs_nonneg a)
          simp only [NearTo, zero_sub, abs_neg]
          linarith
    have := key O.rows hWF.2 hsmall
    rwa [hWF.1] at this
  exact (C96_accepted_iff I x fs hx).2 ⟨O, y, hO, hr, hd, hcopy, hc, ⟨hy.trans hx.symm, A, hys, hnear⟩,
    .inr ⟨fs', z, hsave, hload, hz.trans hy.symm, A, hzs, hnear⟩⟩

end Limits

/-! ### Examples -/

section Examples

/-- A decomposition of the matrices used here. -/
def vsSvd (D : Mat ℚ) : Except Err (Svd ℚ) :=
  .ok ⟨⟨D.nrows, 1, D.rows⟩, [1], ⟨1, D.ncols, [replicate D.ncols 1]⟩⟩

/-- The same for zero matrices. -/
def vsSvd0 (D : Mat ℚ) : Except Err (Svd ℚ) :=
  .ok ⟨⟨D.nrows, 1, D.rows⟩, [0], ⟨1, D.ncols, [replicate D.ncols 1]⟩⟩

/-- A solver with regularizer `2`, fitted. -/
def vsFitted : L2 ℚ ℚ :=
  ((L2.mk (some 2) none none).fit vsSvd (.mat ⟨2, 1, [[1], [0]]⟩) (.mat ⟨3, 2, [[1, 2], [3, 4], [5, 6]]⟩)).1

/-- `C96_l2` applies, and the solver is accepted: `solve()` works. -/
example (fs : FS ℚ) : l2LsqI.verify ⟨vsFitted, ⟨none, none⟩⟩ fs = (fs.remove "_solververification.h5", .ok ()) :=
  (C96_l2 vsSvd (by rintro D u ⟨⟩; rfl) ⟨some 2, none, none⟩ vsFitted (.mat ⟨2, 1, [[1], [0]]⟩)
    (.mat ⟨3, 2, [[1, 2], [3, 4], [5, 6]]⟩) rfl (by rintro _ ⟨⟩; decide) none (by simp) fs).1
    (.mat ⟨3, 1, [[1 / 5], [3 / 5], [1]]⟩) (by decide +kernel)

/-- `C96_singular_refused` applies. -/
example (fs : FS ℚ) : ∃ s', (L2.mk (some 0) none none).fit vsSvd0 (.mat ⟨1, 1, [[(0 : ℚ)]]⟩) (.mat ⟨1, 1, [[1]]⟩) =
      (s', .ok ()) ∧
    (l2LsqI.verify ⟨s', ⟨none, none⟩⟩ fs).2 = .error .verification :=
  ⟨_, rfl, C96_singular_refused vsSvd0 (by rintro D u ⟨⟩; rfl) ⟨some 0, none, none⟩ _ ⟨1, 1, [[0]]⟩ ⟨1, 1, [[1]]⟩ rfl rfl rfl (by simp) none
    (by simp) fs⟩

/-- A copy with another solution is refused. -/
example : (({ l2LsqI with copy := fun _ => .ok ⟨{ vsFitted with reg := some 1 }, ⟨none, none⟩⟩ } :
    LsqI ℚ (SolverFile (L2 ℚ ℚ) ℚ)).verify ⟨vsFitted, ⟨none, none⟩⟩ (fun _ => none)).2 = .error .verification := by
  decide +kernel

/-- A class without `save()` is accepted. -/
example : (({ l2LsqI with save := fun _ fs _ => (fs, .error .notImplemented) } :
    LsqI ℚ (SolverFile (L2 ℚ ℚ) ℚ)).verify ⟨vsFitted, ⟨none, none⟩⟩ (fun _ => none)).2 = .ok () := by
  decide +kernel

end Examples

end Opinf
