import Verif.Model.Bayes

/-!
# C55: posterior distributions, saved and loaded
-/

namespace Opinf

open List

variable {K S G : Type}

/-! ### Specification -/

/-- What is assumed of the library: the inverse of a matrix has the shape of the matrix, and a sample has the length
of the mean. -/
structure NormalLib.Lawful (L : NormalLib K G) : Prop where
  shape : ∀ P C, L.invert P = .ok C → C.nrows = P.nrows ∧ C.ncols = P.ncols
  size : ∀ mu C g, (L.sample mu C g).1.length = mu.length

/-- Sampling for one mean and covariance after the other. -/
def sampleAll (L : NormalLib K G) : List (List K) → List (Mat K) → G → List (List K) × G
  | mu :: mus, C :: Cs, g =>
    let x := L.sample mu C g
    let xs := sampleAll L mus Cs x.2
    (x.1 :: xs.1, xs.2)
  | _, _, g => ([], g)

/-- The invariant of posterior objects made by the constructor. -/
structure Posterior.Shaped (P : Posterior K) : Prop where
  square : ∀ rv ∈ P.rows, rv.cov.nrows = rv.mean.length ∧ rv.cov.ncols = rv.mean.length
  nonempty : P.rows ≠ []
  asArray : P.asArray = true ↔ ∃ d, ∀ mu ∈ P.means, mu.length = d

/-! ### The constructor -/

theorem rowDists_ok (L : NormalLib K G) (hL : L.Lawful) (inv : Bool) : ∀ (ms ps : List (NdArg K)) (rows : List (RowDist K)),
    ms.length = ps.length → rowDists L inv ms ps = .ok rows →
    ms = rows.map (fun rv => .vec rv.mean) ∧ (∀ rv ∈ rows, rv.viaObject = !inv) ∧
    (∀ rv ∈ rows, rv.cov.nrows = rv.mean.length ∧ rv.cov.ncols = rv.mean.length) ∧
    Forall₂ (fun p (rv : RowDist K) => if inv then p = .mat rv.cov ∧ L.admits rv.cov = .ok ()
      else ∃ P, p = .mat P ∧ L.invert P = .ok rv.cov) ps rows := by
  intro ms
  induction ms with
  | nil =>
    intro ps rows hl h
    cases ps with
    | nil => simp only [rowDists, Except.ok.injEq] at h; subst h; simp
    | cons p ps => simp at hl
  | cons m ms ih =>
    intro ps rows hl h
    cases ps with
    | nil => simp at hl
    | cons p ps =>
      simp only [rowDists] at h
      cases hr : rowDist L inv m p with
      | error e => rw [hr] at h; simp at h
      | ok rv =>
        rw [hr] at h
        simp only at h
        cases hrs : rowDists L inv ms ps with
        | error e => rw [hrs] at h; simp at h
        | ok rvs =>
          rw [hrs] at h
          simp only [Except.ok.injEq] at h
          subst h
          obtain ⟨i1, i2, i3, i4⟩ := ih ps rvs (by simpa using hl) hrs
          have key : m = .vec rv.mean ∧ rv.viaObject = !inv ∧
              (rv.cov.nrows = rv.mean.length ∧ rv.cov.ncols = rv.mean.length) ∧
              (if inv then p = .mat rv.cov ∧ L.admits rv.cov = .ok ()
                else ∃ P, p = .mat P ∧ L.invert P = .ok rv.cov) := by
            unfold rowDist at hr
            cases m with
            | mat A => simp at hr
            | other => simp at hr
            | vec mu =>
              cases p with
              | vec x => simp at hr
              | other => simp at hr
              | mat P =>
                simp only at hr
                by_cases hsh : P.nrows ≠ mu.length ∨ P.ncols ≠ mu.length
                · rw [if_pos hsh] at hr; simp at hr
                · rw [if_neg hsh] at hr
                  push Not at hsh
                  cases inv with
                  | true =>
                    simp only [if_true] at hr
                    cases ha : L.admits P with
                    | error e => rw [ha] at hr; simp at hr
                    | ok u =>
                      rw [ha] at hr
                      simp only [Except.ok.injEq] at hr
                      subst hr
                      exact ⟨rfl, rfl, hsh, by simp [ha]⟩
                  | false =>
                    simp only [Bool.false_eq_true, if_false] at hr
                    cases ha : L.invert P with
                    | error e => rw [ha] at hr; simp at hr
                    | ok C =>
                      rw [ha] at hr
                      simp only [Except.ok.injEq] at hr
                      subst hr
                      obtain ⟨s1, s2⟩ := hL.shape P C ha
                      exact ⟨rfl, rfl, ⟨s1.trans hsh.1, s2.trans hsh.2⟩, by simpa using ha⟩
          refine ⟨by rw [map_cons, ← i1, key.1], ?_, ?_, .cons key.2.2.2 i4⟩
          · intro x hx
            rcases mem_cons.1 hx with rfl | hx
            · exact key.2.1
            · exact i2 x hx
          · intro x hx
            rcases mem_cons.1 hx with rfl | hx
            · exact key.2.2.1
            · exact i3 x hx

/-- **C55**, the constructor: an accepted posterior has the given means and, row by row, the inverses of the given
precision matrices (or the given covariance matrices). -/
theorem C55_constructor (L : NormalLib K G) (hL : L.Lawful) (ms ps : List (NdArg K)) (inv : Bool) (P : Posterior K)
    (h : Posterior.make L ms ps inv = .ok P) :
    P.Shaped ∧ ms = P.means.map .vec ∧ (∀ rv ∈ P.rows, rv.viaObject = !inv) ∧
    Forall₂ (fun p C => if inv then p = .mat C ∧ L.admits C = .ok () else ∃ A, p = .mat A ∧ L.invert A = .ok C)
      ps P.covs := by
  unfold Posterior.make at h
  by_cases hl : ms.length ≠ ps.length
  · rw [if_pos hl] at h; simp at h
  · rw [if_neg hl] at h
    push Not at hl
    cases hr : rowDists L inv ms ps with
    | error e => rw [hr] at h; simp at h
    | ok rows =>
      obtain ⟨h1, h2, h3, h4⟩ := rowDists_ok L hL inv ms ps rows hl hr
      rw [hr] at h
      cases rows with
      | nil => simp at h
      | cons rv rvs =>
        simp only [Except.ok.injEq] at h
        subst h
        refine ⟨⟨h3, by simp, ?_⟩, ?_, h2, ?_⟩
        · simp only [Posterior.means, map_cons, mem_cons, mem_map, all_eq_true, beq_iff_eq]
          constructor
          · rintro h
            refine ⟨rv.mean.length, ?_⟩
            rintro mu (rfl | ⟨x, hx, rfl⟩)
            · rfl
            · exact h x hx
          · rintro ⟨d, hd⟩ x hx
            rw [hd _ (Or.inl rfl), hd _ (Or.inr ⟨x, hx, rfl⟩)]
        · rw [h1, Posterior.means, map_map]; rfl
        · rw [Posterior.covs, forall₂_map_right_iff]; exact h4

/-! ### Equality -/

/-- **C55**, equality: two posteriors are equal exactly if they have the same means and covariances. -/
theorem C55_eq_iff [DecidableEq K] (P Q : Posterior K) : P.beq Q = true ↔ P.means = Q.means ∧ P.covs = Q.covs := by
  have key : ∀ {α : Type} [DecidableEq α] (a b : List α), a.length = b.length →
      ((zipWith (fun x y => decide (x = y)) a b).all id = true ↔ a = b) := by
    intro α _ a
    induction a with
    | nil => intro b h; cases b <;> simp_all
    | cons x a ih =>
      intro b h
      cases b with
      | nil => simp at h
      | cons y b =>
        have := ih b (by simpa using h)
        simp only [zipWith_cons_cons, all_cons, id, Bool.and_eq_true, decide_eq_true_eq, this, cons.injEq]
  unfold Posterior.beq
  by_cases hl : P.rows.length ≠ Q.rows.length
  · rw [if_pos hl]
    simp only [Bool.false_eq_true, false_iff, not_and]
    intro hm
    have := congrArg length hm
    simp only [Posterior.means, length_map] at this
    exact absurd this hl
  · rw [if_neg hl]
    push Not at hl
    rw [Bool.and_eq_true, key _ _ (by simp [Posterior.means, hl]), key _ _ (by simp [Posterior.covs, hl])]

/-! ### Drawing from a constructed posterior -/

theorem drawRows_object (L : NormalLib K G) : ∀ (rows : List (RowDist K)) (g : G), (∀ rv ∈ rows, rv.viaObject = true) →
    drawRows L rows g = ((sampleAll L (rows.map RowDist.mean) (rows.map RowDist.cov) g).2,
      .ok ((sampleAll L (rows.map RowDist.mean) (rows.map RowDist.cov) g).1.map .vec)) := by
  intro rows
  induction rows with
  | nil => intro g _; rfl
  | cons rv rvs ih =>
    intro g h
    have hv := h rv (by simp)
    simp only [drawRows, RowDist.rvs, hv, if_true, Sample.first]
    rw [ih _ fun x hx => h x (by simp [hx])]
    rfl

theorem samples_length (L : NormalLib K G) (hL : L.Lawful) : ∀ (ms : List (List K)) (Cs : List (Mat K)) (g : G),
    ms.length = Cs.length → (sampleAll L ms Cs g).1.map length = ms.map length := by
  intro ms
  induction ms with
  | nil => intro Cs g _; simp [sampleAll]
  | cons m ms ih =>
    intro Cs g h
    cases Cs with
    | nil => simp at h
    | cons C Cs =>
      simp only [sampleAll, map_cons, hL.size]
      rw [ih Cs _ (by simpa using h)]

theorem vectors_map (d : Nat) : ∀ vs : List (List K), (∀ v ∈ vs, v.length = d) → vectors d (vs.map Sample.vec) = some vs := by
  intro vs
  induction vs with
  | nil => intro _; rfl
  | cons v vs ih =>
    intro h
    rw [map_cons, vectors, if_pos (h v (by simp)), ih fun x hx => h x (by simp [hx])]
    rfl

/-- **C55**, drawing: a posterior made from precision matrices, with all means of length `d`, gives an `r × d` array
whose rows are sampleAll for its means and covariances. -/
theorem C55_draw (L : NormalLib K G) (hL : L.Lawful) (ms ps : List (NdArg K)) (P : Posterior K) (d : Nat)
    (h : Posterior.make L ms ps false = .ok P) (hd : ∀ mu ∈ P.means, mu.length = d) (g : G) :
    P.rvs L g = ((sampleAll L P.means P.covs g).2, .ok (.matrix ⟨ms.length, d, (sampleAll L P.means P.covs g).1⟩)) ∧
    (sampleAll L P.means P.covs g).1.length = ms.length ∧ ∀ row ∈ (sampleAll L P.means P.covs g).1, row.length = d := by
  obtain ⟨hP, hms, hv, -⟩ := C55_constructor L hL ms ps false P h
  have hml : P.means.length = P.covs.length := by simp [Posterior.means, Posterior.covs]
  have hlen := samples_length L hL P.means P.covs g hml
  have hl : (sampleAll L P.means P.covs g).1.length = P.means.length := by
    have := congrArg length hlen; simpa using this
  have hms' : ms.length = P.means.length := by rw [hms]; simp
  have hrow : ∀ row ∈ (sampleAll L P.means P.covs g).1, row.length = d := by
    intro row hrow
    have : row.length ∈ P.means.map length := hlen ▸ mem_map_of_mem hrow
    obtain ⟨mu, hmu, e⟩ := mem_map.1 this
    rw [← e, hd mu hmu]
  refine ⟨?_, hl.trans hms'.symm, hrow⟩
  have harr : P.asArray = true := hP.asArray.2 ⟨d, hd⟩
  rw [Posterior.rvs, drawRows_object L P.rows g (fun rv hrv => by simpa using hv rv hrv)]
  change (if P.asArray = true then ((sampleAll L P.means P.covs g).2, stackSamples ((sampleAll L P.means P.covs g).1.map .vec))
    else _) = _
  rw [if_pos harr]
  have hne : (sampleAll L P.means P.covs g).1 ≠ [] := by
    intro he
    rw [he] at hl
    apply hP.nonempty
    simp only [Posterior.means, length_map, length_nil] at hl
    exact length_eq_zero_iff.1 hl.symm
  revert hrow hne hl
  rw [hms']
  generalize (sampleAll L P.means P.covs g).1 = vs
  intro hl hrow hne
  cases vs with
  | nil => exact absurd rfl hne
  | cons v vs =>
    have hv' : v.length = d := hrow v (by simp)
    simp only [stackSamples, map_cons, scalars]
    have := vectors_map v.length (v :: vs) (fun x hx => by rw [hrow x hx, hv'])
    rw [map_cons] at this
    rw [this]
    simp only [hv', ← hl]

/-! ### Save and load -/

theorem readRows_save : ∀ rows : List (RowDist K),
    readRows rows.length (rows.map fun rv => (.node [("means", .arr rv.mean), ("covs", .mat rv.cov)] [] : H5 K)) =
      .ok (rows.map (fun rv => .vec rv.mean), rows.map (fun rv => .mat rv.cov)) := by
  intro rows
  induction rows with
  | nil => rfl
  | cons rv rvs ih =>
    simp only [length_cons, map_cons, readRows]
    rw [ih]
    rfl

theorem rowDists_load (L : NormalLib K G) : ∀ rows : List (RowDist K),
    (∀ rv ∈ rows, rv.cov.nrows = rv.mean.length ∧ rv.cov.ncols = rv.mean.length) →
    (∀ rv ∈ rows, L.admits rv.cov = .ok ()) →
    rowDists L true (rows.map (fun rv => .vec rv.mean)) (rows.map (fun rv => .mat rv.cov)) =
      .ok (rows.map fun rv => ⟨rv.mean, rv.cov, false⟩) := by
  intro rows
  induction rows with
  | nil => intro _ _; rfl
  | cons rv rvs ih =>
    intro h1 h2
    obtain ⟨s1, s2⟩ := h1 rv (by simp)
    have ha := h2 rv (by simp)
    have hr : rowDist L true (.vec rv.mean) (.mat rv.cov) = .ok ⟨rv.mean, rv.cov, false⟩ := by
      unfold rowDist
      simp only [s1, s2, ne_eq, not_true, or_self, if_false, if_true, ha]
    simp only [map_cons, rowDists, hr]
    rw [ih (fun x hx => h1 x (by simp [hx])) (fun x hx => h2 x (by simp [hx]))]

theorem rowDists_refused (L : NormalLib K G) : ∀ rows : List (RowDist K),
    (∃ rv ∈ rows, L.admits rv.cov ≠ .ok ()) →
    ∃ e, rowDists L true (rows.map (fun rv => .vec rv.mean)) (rows.map (fun rv => .mat rv.cov)) = .error e := by
  intro rows
  induction rows with
  | nil => rintro ⟨rv, hrv, -⟩; simp at hrv
  | cons rv rvs ih =>
    rintro ⟨x, hx, ha⟩
    simp only [map_cons, rowDists]
    cases hr : rowDist L true (.vec rv.mean) (.mat rv.cov) with
    | error e => exact ⟨e, rfl⟩
    | ok y =>
      simp only
      rcases mem_cons.1 hx with rfl | hx
      · exfalso
        unfold rowDist at hr
        simp only [if_true] at hr
        split at hr
        · simp at hr
        · cases hadm : L.admits x.cov with
          | error e => rw [hadm] at hr; simp at hr
          | ok u => exact ha hadm
      · obtain ⟨e, he⟩ := ih ⟨x, hx, ha⟩
        exact ⟨e, by rw [he]⟩

/-- The posterior that `load` makes of a saved one. -/
def Posterior.reloaded (P : Posterior K) : Posterior K := ⟨P.rows.map fun rv => ⟨rv.mean, rv.cov, false⟩, P.asArray⟩

theorem make_load (L : NormalLib K G) (P : Posterior K) (hP : P.Shaped) (ha : ∀ C ∈ P.covs, L.admits C = .ok ()) :
    Posterior.make L (P.rows.map (fun rv => .vec rv.mean)) (P.rows.map (fun rv => .mat rv.cov)) true
      = .ok P.reloaded := by
  unfold Posterior.make
  rw [if_neg (by simp), rowDists_load L P.rows hP.square (fun rv hrv => ha _ (mem_map_of_mem hrv))]
  have hne := hP.nonempty
  have harr := hP.asArray
  obtain ⟨rows, arr⟩ := P
  cases rows with
  | nil => exact absurd rfl hne
  | cons rv rvs =>
    simp only [map_cons, Posterior.reloaded, Except.ok.injEq, Posterior.mk.injEq, true_and]
    rw [Bool.eq_iff_iff, harr]
    simp only [Posterior.means, map_cons, mem_cons, mem_map, all_eq_true, beq_iff_eq]
    constructor
    · intro h
      refine ⟨rv.mean.length, ?_⟩
      rintro mu (rfl | ⟨x, hx, rfl⟩)
      · rfl
      · exact h ⟨x.mean, x.cov, false⟩ ⟨x, hx, rfl⟩
    · rintro ⟨d, hd⟩ x ⟨y, hy, rfl⟩
      rw [hd _ (Or.inl rfl)]
      exact hd _ (Or.inr ⟨y, hy, rfl⟩)

/-- **C55**, the round trip: a posterior that was saved (to any path, over any file system) is loaded as an equal
posterior, provided that the library accepts its covariance matrices as arrays; otherwise loading raises. -/
theorem C55_round_trip_partial [DecidableEq K] (L : NormalLib K G) (P : Posterior K) (hP : P.Shaped)
    (fs fs' : FS K) (path : String) (w : Bool) (hs : saveFile fs path true P.save = (fs', .ok (), w)) :
    ((∀ C ∈ P.covs, L.admits C = .ok ()) →
      ∃ Q, Posterior.load L fs' path = .ok Q ∧ Q.beq P = true ∧ Q.asArray = P.asArray) ∧
    ((∃ C ∈ P.covs, L.admits C ≠ .ok ()) → ∃ e, Posterior.load L fs' path = .error e) := by
  have hfs : fs' path = some P.save.1 := by
    simp only [saveFile, Bool.not_true, Bool.and_false, Bool.false_eq_true, if_false, Prod.mk.injEq] at hs
    rw [← hs.1]
    simp [FS.write]
  have hread : loadFile fs' path readPosterior =
      .ok (P.rows.map (fun rv => .vec rv.mean), P.rows.map (fun rv => .mat rv.cov)) := by
    have : readPosterior P.save.1 =
        .ok (P.rows.map (fun rv => .vec rv.mean), P.rows.map (fun rv => .mat rv.cov)) := by
      rw [← readRows_save]; rfl
    simp only [loadFile, hfs, this, asLoadError]
  constructor
  · intro ha
    refine ⟨P.reloaded, ?_, ?_, rfl⟩
    · simp only [Posterior.load, hread]
      exact make_load L P hP ha
    · rw [C55_eq_iff]
      simp only [Posterior.means, Posterior.covs, Posterior.reloaded, map_map]
      exact ⟨rfl, rfl⟩
  · rintro ⟨C, hC, ha⟩
    obtain ⟨rv, hrv, rfl⟩ := mem_map.1 hC
    obtain ⟨e, he⟩ := rowDists_refused L P.rows ⟨rv, hrv, ha⟩
    refine ⟨e, ?_⟩
    simp only [Posterior.load, hread, Posterior.make]
    rw [if_neg (by simp), he]

/-! ### Drawing from a loaded posterior -/

theorem drawRows_array (L : NormalLib K G) (hL : L.Lawful) : ∀ (rows : List (RowDist K)) (g : G),
    (∀ rv ∈ rows, rv.viaObject = false ∧ 2 ≤ rv.mean.length) →
    ∃ v, drawRows L rows g = ((sampleAll L (rows.map RowDist.mean) (rows.map RowDist.cov) g).2, .ok (v.map .scalar)) ∧
      Forall₂ (fun x row => row.head? = some x) v
        (sampleAll L (rows.map RowDist.mean) (rows.map RowDist.cov) g).1 := by
  intro rows
  induction rows with
  | nil => intro g _; exact ⟨[], rfl, .nil⟩
  | cons rv rvs ih =>
    intro g h
    obtain ⟨hv, hlen⟩ := h rv (by simp)
    have hs := hL.size rv.mean rv.cov g
    simp only [drawRows, RowDist.rvs, hv, Bool.false_eq_true, if_false, map_cons, sampleAll]
    rcases hx : L.sample rv.mean rv.cov g with ⟨out, g'⟩
    rw [hx] at hs
    simp only at hs
    match out, hs with
    | [], hs => simp at hs; omega
    | [x], hs => simp at hs; omega
    | x :: y :: out, hs =>
      obtain ⟨v, h1, h2⟩ := ih g' fun x hx => h x (by simp [hx])
      refine ⟨x :: v, ?_, .cons rfl h2⟩
      simp only [Sample.first, h1]
      rfl

theorem scalars_map : ∀ v : List K, scalars (v.map Sample.scalar) = some v := by
  intro v
  induction v with
  | nil => rfl
  | cons x v ih => simp [scalars, ih]

/-- **C55 is false of the code.** From a loaded posterior with rows of length `d ≥ 2` the method `rvs` returns a
one-dimensional array with the first entry of each row instead of an `r × d` array. -/
theorem C55_loaded_draw_wrong_shape (L : NormalLib K G) (hL : L.Lawful) (fs : FS K) (path : String) (Q : Posterior K)
    (h : Posterior.load L fs path = .ok Q) (d : Nat) (h2 : 2 ≤ d) (hd : ∀ mu ∈ Q.means, mu.length = d) (g : G) :
    ∃ v, (Q.rvs L g).2 = .ok (.vector v) ∧ v.length = Q.rows.length ∧
      Forall₂ (fun x row => row.head? = some x) v (sampleAll L Q.means Q.covs g).1 := by
  have hmake : ∃ ms cs, Posterior.make L ms cs true = .ok Q := by
    unfold Posterior.load at h
    cases hl : loadFile fs path readPosterior with
    | error e => rw [hl] at h; simp at h
    | ok x => rw [hl] at h; exact ⟨x.1, x.2, h⟩
  obtain ⟨ms, cs, hm⟩ := hmake
  obtain ⟨hQ, -, hv, -⟩ := C55_constructor L hL ms cs true Q hm
  obtain ⟨v, h1, h3⟩ := drawRows_array L hL Q.rows g fun rv hrv =>
    ⟨by simpa using hv rv hrv, by rw [hd _ (mem_map_of_mem hrv)]; exact h2⟩
  have harr : Q.asArray = true := hQ.asArray.2 ⟨d, hd⟩
  refine ⟨v, ?_, ?_, h3⟩
  · simp only [Posterior.rvs, h1, harr, if_true, stackSamples, scalars_map]
  · have := h3.length_eq
    have hs := congrArg length (samples_length L hL (Q.rows.map RowDist.mean) (Q.rows.map RowDist.cov) g (by simp))
    simp only [length_map] at hs
    rw [this, hs]

/-- **C55 is false of the code.** From a loaded posterior whose first row has length one `rvs` raises an
`IndexError`. -/
theorem C55_loaded_draw_raises (L : NormalLib K G) (hL : L.Lawful) (fs : FS K) (path : String) (Q : Posterior K)
    (h : Posterior.load L fs path = .ok Q) (hd : ∀ mu ∈ Q.means.head?, mu.length = 1) (g : G) :
    (Q.rvs L g).2 = .error .index := by
  have hmake : ∃ ms cs, Posterior.make L ms cs true = .ok Q := by
    unfold Posterior.load at h
    cases hl : loadFile fs path readPosterior with
    | error e => rw [hl] at h; simp at h
    | ok x => rw [hl] at h; exact ⟨x.1, x.2, h⟩
  obtain ⟨ms, cs, hm⟩ := hmake
  obtain ⟨hQ, -, hv, -⟩ := C55_constructor L hL ms cs true Q hm
  have hne := hQ.nonempty
  obtain ⟨rows, arr⟩ := Q
  cases rows with
  | nil => exact absurd rfl hne
  | cons rv rvs =>
    have h1 : rv.mean.length = 1 := hd rv.mean (by simp [Posterior.means])
    have hs := hL.size rv.mean rv.cov g
    have hv' : rv.viaObject = false := by simpa using hv rv (by simp)
    simp only [Posterior.rvs, drawRows, RowDist.rvs, hv', Bool.false_eq_true, if_false]
    rcases hx : L.sample rv.mean rv.cov g with ⟨out, g'⟩
    rw [hx] at hs
    simp only at hs
    match out, hs with
    | [], hs => simp at hs; omega
    | [x], hs => simp only [Sample.first]
    | x :: y :: out, hs => simp at hs; omega

/-! ### Example -/

namespace BayesEx

/-- A library for diagonal precision matrices whose sampleAll are the means plus the generator state. -/
def lib : NormalLib ℚ Nat where
  invert P := .ok ⟨P.nrows, P.ncols, P.rows.map fun row => row.map fun x => if x = 0 then 0 else x⁻¹⟩
  admits _ := .ok ()
  sample mu _ g := (mu.map (· + (g : ℚ)), g + 1)

theorem lawful : lib.Lawful := by
  refine ⟨fun P C h => ?_, fun mu C g => by simp [lib]⟩
  simp only [lib, Except.ok.injEq] at h
  subst h
  exact ⟨rfl, rfl⟩

def means : List (NdArg ℚ) := [.vec [1, 2], .vec [3, 4]]
def precs : List (NdArg ℚ) := [.mat ⟨2, 2, [[2, 0], [0, 4]]⟩, .mat ⟨2, 2, [[1, 0], [0, 1]]⟩]

def post : Posterior ℚ := ⟨[⟨[1, 2], ⟨2, 2, [[1/2, 0], [0, 1/4]]⟩, true⟩, ⟨[3, 4], ⟨2, 2, [[1, 0], [0, 1]]⟩, true⟩], true⟩

example : Posterior.make lib means precs false = .ok post := by decide +kernel

/-- The same posterior, saved and loaded: equal, but draws have another shape. -/
theorem C55_witness :
    (saveFile (fun _ => none) "p.h5" true post.save).2.1 = .ok () ∧
    Posterior.load lib (saveFile (fun _ => none) "p.h5" true post.save).1 "p.h5" = .ok post.reloaded ∧
    post.reloaded.beq post = true ∧
    (post.rvs lib 0).2 = .ok (.matrix ⟨2, 2, [[1, 2], [4, 5]]⟩) ∧
    (post.reloaded.rvs lib 0).2 = .ok (.vector [1, 4]) := by
  refine ⟨by decide +kernel, by decide +kernel, by decide +kernel, by decide +kernel, by decide +kernel⟩

end BayesEx

end Opinf
