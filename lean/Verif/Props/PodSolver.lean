import Verif.Model.PodSolver
import Verif.Props.PodOptimal
import Verif.Lemmas.MonoFit

/-!
# C100: the SVD solver of a POD basis and `pod_basis()`
-/

namespace Opinf

open List

variable {K : Type}

/-! ### Choosing the solver -/

/-- **C100** (names): exactly four names are accepted, where `"eigh"` is the method of snapshots; every callable is
accepted. -/
theorem C100_solver_names (s : String) : (∃ l, (SvdArg.name s).label = .ok l) ↔
    s ∈ ["dense", "randomized", "method-of-snapshots", "eigh"] := by
  simp only [SvdArg.label, mem_cons, not_mem_nil, or_false]
  by_cases h1 : s = "eigh"
  · subst h1; simp
  · rw [if_neg h1]
    by_cases h2 : s = "dense"
    · simp [h2]
    · by_cases h3 : s = "randomized"
      · simp [h3]
      · by_cases h4 : s = "method-of-snapshots"
        · simp [h4]
        · simp [h1, h2, h3, h4]

/-- **C100** (names): what they stand for. -/
theorem C100_solver_labels (f : String) : (SvdArg.callable f).label = .ok (.custom f) ∧
    (SvdArg.name "dense").label = .ok .dense ∧ (SvdArg.name "randomized").label = .ok .randomized ∧
    (SvdArg.name "method-of-snapshots").label = .ok .snapshots ∧ (SvdArg.name "eigh").label = .ok .snapshots := by
  refine ⟨rfl, ?_, ?_, ?_, ?_⟩ <;> decide

/-- **C100** (refused settings): another name raises `AttributeError`, options that are no dictionary raise
`TypeError`; the basis does not change. -/
theorem C100_refused_setting (s : SolverPod K) (n : String)
    (hn : n ∉ ["dense", "randomized", "method-of-snapshots", "eigh"]) :
    s.setSolver (.name n) = (s, .error .attribute) ∧ s.setOptions .other = (s, .error .type) := by
  refine ⟨?_, rfl⟩
  simp only [mem_cons, not_mem_nil, or_false, not_or] at hn
  simp [SolverPod.setSolver, SvdArg.label, hn]

/-- **C100** (accepted options): `None` resets the options, a dictionary replaces them; nothing else of
the basis changes. -/
theorem C100_set_options (s : SolverPod K) (o : SvdOpts K) :
    s.setOptions .null = ({ s with opts := [] }, .ok ()) ∧
    s.setOptions (.dict o) = ({ s with opts := o }, .ok ()) := ⟨rfl, rfl⟩

/-! ### Options -/

/-- The value of an option. -/
def optOf (o : SvdOpts K) (key : String) : Option (OptVal K) := (o.find? fun e => e.1 == key).map (·.2)

theorem optOf_setOpt (o : SvdOpts K) (key key' : String) (v : OptVal K) :
    optOf (setOpt o key v) key' = if key' = key then some v else optOf o key' := by
  by_cases h : key' = key
  · subst h
    simp [optOf, setOpt]
  · rw [if_neg h]
    have h' : (key == key') = false := by simpa using Ne.symm h
    simp only [optOf, setOpt, find?_cons, h']
    congr 1
    induction o with
    | nil => rfl
    | cons e o ih =>
      by_cases he : e.1 = key
      · have h2 : (e.1 == key') = false := by rw [he]; exact h'
        rw [filter_cons_of_neg (by simpa using he), find?_cons, h2]
        exact ih
      · rw [filter_cons_of_pos (by simpa using he), find?_cons, find?_cons]
        cases e.1 == key' with
        | true => rfl
        | false => exact ih

theorem any_iff_optOf (o : SvdOpts K) (key : String) :
    (o.any fun e => decide (e.1 = key)) = (optOf o key).isSome := by
  induction o with
  | nil => rfl
  | cons e o ih =>
    rw [any_cons, ih]
    by_cases he : e.1 = key
    · simp [optOf, he]
    · have h2 : (e.1 == key) = false := by simpa using he
      simp [optOf, he, h2]

/-- **C100** (options): the solver is called with the options of the user, except that the dense solver always gets
`full_matrices=False`, the randomized one the number of vectors that are kept (and `random_state=None` unless given)
and the method of snapshots the weights. -/
theorem C100_options (l : SvdLabel) (o : SvdOpts K) (m : Nat) (W : Option (Weights K)) (key : String) :
    optOf (svdOptions l o m W) key =
      match l with
      | .dense => if key = "full_matrices" then some (.bool false) else optOf o key
      | .randomized =>
        if key = "n_components" then some (.int m)
        else if key = "random_state" then some ((optOf o key).getD .null) else optOf o key
      | .snapshots =>
        if key = "inner_product_matrix" then some ((W.map OptVal.weights).getD .null) else optOf o key
      | .custom _ => optOf o key := by
  cases l with
  | dense => exact optOf_setOpt _ _ _ _
  | snapshots => exact optOf_setOpt _ _ _ _
  | custom f => rfl
  | randomized =>
    simp only [svdOptions]
    rw [any_iff_optOf, optOf_setOpt, if_neg (show ¬ ("random_state" = "n_components") by decide)]
    by_cases h1 : key = "n_components"
    · subst h1
      split
      · simp [optOf_setOpt]
      · rw [optOf_setOpt, if_neg (show ¬ ("n_components" = "random_state") by decide), optOf_setOpt, if_pos rfl, if_pos rfl]
    · rw [if_neg h1]
      by_cases h2 : key = "random_state"
      · subst h2
        rw [if_pos rfl]
        cases h : optOf o "random_state" with
        | none => simp [optOf_setOpt]
        | some v => simp [optOf_setOpt, h]
      · rw [if_neg h2]
        split
        · simp [optOf_setOpt, h1]
        · simp [optOf_setOpt, h1, h2]

section

variable [Field K] [LinearOrder K]

/-- **C100** (fitting keeps the settings): solver, options and weights are the same afterwards, also if it fails. -/
theorem C100_fit_keeps (lib : PodLib K) (s : SolverPod K) (Y : Snap K) :
    (s.fit lib Y).1.label = s.label ∧ (s.fit lib Y).1.opts = s.opts ∧ (s.fit lib Y).1.root = s.root := by
  unfold SolverPod.fit
  split <;> exact ⟨rfl, rfl, rfl⟩

/-! ### Changing the solver -/

/-- The solver that is in use after a sequence of settings, some of which may be refused. -/
def lastLabel (l : SvdLabel) : List SvdArg → SvdLabel
  | [] => l
  | a :: as => lastLabel (match a.label with
    | .ok l' => l'
    | .error _ => l) as

/-- The constructor's result for a given strategy, apart from the stored square root. -/
theorem make_inv {a : CritArgs K} {mw : Option Int} {arg : SvdArg} {W : WArg K} {name : Option String}
    {o : SvdOpts K} {s : SolverPod K} (h : SolverPod.make a mw arg W name o = .ok s) :
    ∃ p l w c, Pod.make a mw false false W name = .ok p ∧ arg.label = .ok l ∧ W.toWeights = .ok w ∧ a.pick = .ok c ∧
      p.lin = ⟨name, none, none, none, w⟩ ∧ p.crit = c ∧ p.maxWanted = mw.map Int.toNat ∧ p.svd = none ∧
      s = SolverPod.withLabel ⟨p, l, o, w.isSome && decide (l ≠ .snapshots)⟩ l := by
  unfold SolverPod.make at h
  cases hp : Pod.make a mw false false W name with
  | error e => rw [hp] at h; cases h
  | ok p =>
    cases hl : arg.label with
    | error e => rw [hp, hl] at h; cases h
    | ok l =>
      rw [hp, hl] at h
      have hp' := hp
      unfold Pod.make at hp'
      cases hc : a.pick with
      | error e => rw [hc] at hp'; cases hp'
      | ok c =>
        rw [hc] at hp'
        simp only [bind, Except.bind] at hp'
        cases hw : W.toWeights with
        | error e =>
          rw [hw] at hp'
          split at hp' <;> cases hp'
        | ok w =>
          rw [hw] at hp'
          split at hp'
          · cases hp'
          · simp only [pure, Except.pure, Except.ok.injEq] at hp'
            subst hp'
            refine ⟨_, l, w, c, rfl, rfl, rfl, rfl, rfl, rfl, rfl, rfl, ?_⟩
            exact (Except.ok.inj h).symm

omit [Field K] [LinearOrder K] in
theorem withLabel_twice (s : SolverPod K) (l l' : SvdLabel) :
    (s.withLabel l).withLabel l' = s.withLabel l' := rfl

omit [Field K] [LinearOrder K] in
theorem foldl_setSolver (s : SolverPod K) (as : List SvdArg) (l : SvdLabel) :
    as.foldl (fun s a => (s.setSolver a).1) (s.withLabel l) = s.withLabel (lastLabel l as) := by
  induction as generalizing l with
  | nil => rfl
  | cons a as ih =>
    rw [foldl_cons, lastLabel]
    cases h : a.label with
    | error e =>
      simp only [SolverPod.setSolver, h]
      exact ih l
    | ok l' =>
      simp only [SolverPod.setSolver, h, withLabel_twice]
      exact ih l'

/-- **C100** (changing the solver, the part that holds): if the basis was not constructed for the method of
snapshots, or has no weights, or ends up with the method of snapshots, then after any sequence of (accepted or
refused) settings `fit()` does the same as for a basis constructed with the solver that was set last. -/
theorem C100_change_solver_partial (lib : PodLib K) (a : CritArgs K) (mw : Option Int) (arg last : SvdArg)
    (W : WArg K) (name : Option String) (o : SvdOpts K) (s t : SolverPod K) (l : SvdLabel)
    (hs : SolverPod.make a mw arg W name o = .ok s) (ht : SolverPod.make a mw last W name o = .ok t)
    (hl : arg.label = .ok l) (as : List SvdArg) (hlast : last.label = .ok (lastLabel l as))
    (hok : l ≠ .snapshots ∨ W.toWeights = .ok none ∨ lastLabel l as = .snapshots) (Y : Snap K) :
    ((as.foldl (fun s a => (s.setSolver a).1) s).fit lib Y).2 = (t.fit lib Y).2 ∧
      ((as.foldl (fun s a => (s.setSolver a).1) s).fit lib Y).1.pod = (t.fit lib Y).1.pod := by
  obtain ⟨p, l1, w, c, hp, h1, hw, hc, e1, e2, e3, e4, rfl⟩ := make_inv hs
  obtain ⟨p', l2, w', c', hp', h2, hw', hc', f1, f2, f3, f4, rfl⟩ := make_inv ht
  obtain rfl : l1 = l := Except.ok.inj (h1.symm.trans hl)
  obtain rfl : l2 = lastLabel l1 as := Except.ok.inj (h2.symm.trans hlast)
  obtain rfl : w' = w := Except.ok.inj (hw'.symm.trans hw)
  obtain rfl : p' = p := Except.ok.inj (hp'.symm.trans hp)
  rw [foldl_setSolver]
  generalize lastLabel l1 as = m at hok
  have r1 : (SolverPod.withLabel ⟨p', l1, o, w'.isSome && decide (l1 ≠ .snapshots)⟩ m).rootMissing = false := by
    simp only [SolverPod.rootMissing, SolverPod.withLabel, e1]
    rcases hok with h | h | h
    · cases w' <;> simp [h]
    · obtain rfl : w' = none := Except.ok.inj (hw.symm.trans h)
      simp
    · simp [h]
  have r2 : (SolverPod.withLabel ⟨p', m, o, w'.isSome && decide (m ≠ .snapshots)⟩ m).rootMissing = false := by
    simp only [SolverPod.rootMissing, SolverPod.withLabel, e1]
    cases w' <;> by_cases h : m = .snapshots <;> simp [h]
  unfold SolverPod.fit
  rw [r1, r2]
  exact ⟨rfl, rfl⟩

/-- **C100** (the defect): a basis with weights that was constructed for the method of snapshots can never be fitted
after its solver has been changed to another one, whatever the states: `fit()` raises `AttributeError`, although the
basis constructed with the other solver can be fitted. -/
theorem C100_change_solver_fails (lib : PodLib K) (a : CritArgs K) (mw : Option Int) (arg : SvdArg) (W : WArg K)
    (name : Option String) (o : SvdOpts K) (s : SolverPod K) (w : Weights K)
    (hs : SolverPod.make a mw arg W name o = .ok s) (hl : arg.label = .ok .snapshots) (hW : W.toWeights = .ok (some w))
    (as : List SvdArg) (hlast : lastLabel .snapshots as ≠ .snapshots) (Y : Snap K) :
    ((as.foldl (fun s a => (s.setSolver a).1) s).fit lib Y).2 = .error .attribute := by
  obtain ⟨p, l1, w', c, hp, h1, hw, hc, e1, e2, e3, e4, rfl⟩ := make_inv hs
  obtain rfl : l1 = .snapshots := Except.ok.inj (h1.symm.trans hl)
  obtain rfl : w' = some w := Except.ok.inj (hw.symm.trans hW)
  rw [foldl_setSolver, SolverPod.fit, if_pos]
  simp [SolverPod.rootMissing, SolverPod.withLabel, e1, hlast]

/-- **C100** (the defect): the options cannot be given to the constructor as the documented dictionary
`svdsolver_options`: the dictionary itself becomes an option of the solver. A solver that refuses unknown options
then refuses every fit. -/
theorem C100_options_dictionary (lib : PodLib K) (a : CritArgs K) (mw : Option Int) (W : WArg K)
    (name : Option String) (keys : List String) (s : SolverPod K)
    (hs : SolverPod.make a mw (.name "dense") W name [("svdsolver_options", .dict keys)] = .ok s)
    (hlib : ∀ o Z, (optOf o "svdsolver_options").isSome → lib.engine .dense o Z = .error .type) (k : Nat)
    (rows : List (List K)) : ∃ e, (s.fit lib (.mat k rows)).2 = .error e ∧
      (W.toWeights = .ok none → e = .type) := by
  obtain ⟨p, l1, w, c, hp, h1, hw, hc, e1, e2, e3, e4, rfl⟩ := make_inv hs
  obtain rfl : l1 = .dense := Except.ok.inj (h1.symm.trans (C100_solver_labels "").2.1)
  have r1 : (SolverPod.withLabel ⟨p, .dense, [("svdsolver_options", .dict keys)],
      w.isSome && decide (SvdLabel.dense ≠ .snapshots)⟩ .dense).rootMissing = false := by
    simp only [SolverPod.rootMissing, SolverPod.withLabel, e1]
    cases w <;> simp
  rw [SolverPod.fit, r1]
  simp only [Bool.false_eq_true, if_false]
  have hE : ∀ m W' Z, (lib.ext .dense [("svdsolver_options", .dict keys)] m).engine W' Z = .error .type := by
    intro m W' Z
    apply hlib
    rw [C100_options]
    simp [optOf]
  simp only [SolverPod.withLabel, Pod.fit, Pod.decompose, bind, Except.bind]
  cases hZ : Pod.weighted (lib.ext .dense [("svdsolver_options", .dict keys)]
      (SolverPod.kept (SolverPod.withLabel ⟨p, .dense, [("svdsolver_options", .dict keys)],
        w.isSome && decide (SvdLabel.dense ≠ .snapshots)⟩ .dense) (.mat k rows)))
      { p with mos := decide (SvdLabel.dense = .snapshots), randomized := decide (SvdLabel.dense = .randomized) }
      (.mat k rows) with
  | error e =>
    refine ⟨e, ?_, ?_⟩
    · simp only [SolverPod.withLabel] at hZ
      simp only [hZ]
    · intro hn
      obtain rfl : w = none := Except.ok.inj (hw.symm.trans hn)
      simp [Pod.weighted, e1] at hZ
  | ok Z =>
    refine ⟨.type, ?_, fun _ => rfl⟩
    simp only [SolverPod.withLabel] at hZ
    simp only [hZ, hE]

end

end Opinf
