import Verif.Lemmas.TransformParts
import Mathlib.Algebra.Order.Ring.Abs
import Mathlib.Algebra.BigOperators.Group.List.Basic

/-! # What calibration computes -/

namespace Opinf

open List

variable {K : Type} [Field K] [LinearOrder K]

/-- The entries that belong to the statistics of row `i`. -/
def group (byrow : Bool) (rows : List (List K)) (i : Nat) : List K :=
  if byrow then rows.getD i [] else rows.flatten

omit [Field K] [LinearOrder K] in
theorem Coef.get_zip [Zero K] (f : K → K → K) {c d : Coef K} {n i : Nat} (hk : c.isArr = d.isArr)
    (hc : c.Fits n) (hd : d.Fits n) (hi : i < n) : (c.zip f d).get i = f (c.get i) (d.get i) := by
  cases c with
  | num a =>
    cases d with
    | num b => rfl
    | arr bs => simp [Coef.isArr] at hk
  | arr as =>
    cases d with
    | num b => simp [Coef.isArr] at hk
    | arr bs =>
      have h1 : as.length = n := hc
      have h2 : bs.length = n := hd
      simp [Coef.zip, Coef.get, getD_eq_getElem?_getD, h1, h2, hi]

omit [Field K] [LinearOrder K] in
theorem Coef.fits_zip (f : K → K → K) {c d : Coef K} {n : Nat} (hk : c.isArr = d.isArr)
    (hc : c.Fits n) (hd : d.Fits n) : (c.zip f d).Fits n ∧ (c.zip f d).isArr = c.isArr := by
  cases c with
  | num a =>
    cases d with
    | num b => exact ⟨trivial, rfl⟩
    | arr bs => simp [Coef.isArr] at hk
  | arr as =>
    cases d with
    | num b => simp [Coef.isArr] at hk
    | arr bs =>
      have h1 : as.length = n := hc
      have h2 : bs.length = n := hd
      exact ⟨by simp [Coef.zip, Coef.Fits, h1, h2], rfl⟩

omit [LinearOrder K] in
theorem stat_ok {g : List K → Except Err K} {byrow : Bool} {rows : List (List K)} {c : Coef K}
    (h : stat g byrow rows = .ok c) : c.isArr = byrow ∧ c.Fits rows.length ∧
      (∀ i < rows.length, g (group byrow rows i) = .ok (c.get i)) ∧
      (byrow = false → g rows.flatten = .ok (c.get 0)) := by
  unfold stat at h
  cases byrow with
  | true =>
    simp only [if_true, bind, Except.bind, pure, Except.pure] at h
    split at h
    · cases h
    · rename_i r hr
      simp only [Except.ok.injEq] at h
      subst h
      refine ⟨rfl, mapM_ok_length hr, fun i hi => ?_, by simp⟩
      exact mapM_ok_getD [] 0 hr i hi
  | false =>
    simp only [Bool.false_eq_true, if_false, bind, Except.bind, pure, Except.pure] at h
    split at h
    · cases h
    · rename_i r hr
      simp only [Except.ok.injEq] at h
      subst h
      exact ⟨rfl, trivial, fun i _ => hr, fun _ => hr⟩

theorem recip_ok {a : K} {c d : Coef K} (h : c.recip a = .ok d) :
    (0 : K) ∉ c.entries ∧ d.isArr = c.isArr ∧ (∀ n, c.Fits n → d.Fits n) ∧
      (∀ n i, c.Fits n → i < n → d.get i = a / c.get i) ∧ (a ≠ 0 → (0 : K) ∉ d.entries) := by
  unfold Coef.recip at h
  split at h
  · cases h
  · rename_i h0
    simp only [Except.ok.injEq] at h
    subst h
    cases c with
    | num b =>
      have hb : b ≠ 0 := by simpa [Coef.entries, eq_comm] using h0
      refine ⟨h0, rfl, fun _ _ => trivial, fun _ _ _ _ => rfl, fun ha => ?_⟩
      simp [Coef.map, Coef.entries, ha, hb, eq_comm]
    | arr bs =>
      refine ⟨h0, rfl, fun n hn => by simpa [Coef.map, Coef.Fits] using hn, fun n i hn hi => ?_,
        fun ha => ?_⟩
      · have h1 : bs.length = n := hn
        simp [Coef.map, Coef.get, getD_eq_getElem?_getD, h1, hi]
      · simp only [Coef.map, Coef.entries, mem_map, not_exists, not_and]
        intro x hx hz
        rcases div_eq_zero_iff.1 hz with h | h
        · exact ha h
        · exact h0 (by rw [Coef.entries, ← h]; exact hx)

/-- Statistic of a group. -/
structure Learned (sqrt : K → K) (sc : Scaling) (g : List K) (a b : K) : Prop where
  standard : sc = .standard → ∃ mu sigma, meanOf g = .ok mu ∧ stdOf sqrt g = .ok sigma ∧ sigma ≠ 0 ∧
    a = 1 / sigma ∧ b = -mu * a
  minmax : sc = .minmax → ∃ lo hi, minOf g = .ok lo ∧ maxOf g = .ok hi ∧ hi - lo ≠ 0 ∧
    a = 1 / (hi - lo) ∧ b = -lo * a
  minmaxsym : sc = .minmaxsym → ∃ lo hi, minOf g = .ok lo ∧ maxOf g = .ok hi ∧ hi - lo ≠ 0 ∧
    a = 2 / (hi - lo) ∧ b = -lo * a - 1
  maxabs : sc = .maxabs → ∃ m, maxAbsOf g = .ok m ∧ m ≠ 0 ∧ a = 1 / m ∧ b = 0
  maxabssym : sc = .maxabssym → ∃ mu m, meanOf g = .ok mu ∧ maxAbsOf (g.map (· - mu)) = .ok m ∧ m ≠ 0 ∧
    a = 1 / m ∧ b = -mu * a

omit [Field K] [LinearOrder K] in
theorem group_rowMap (byrow : Bool) (rows : List (List K)) (f : Nat → K → K)
    (hb : byrow = false → ∀ i, f i = f 0) (i : Nat) (hi : i < rows.length) :
    group byrow (rows.mapIdx fun i row => row.map (f i)) i = (group byrow rows i).map (f i) := by
  cases byrow with
  | true => simp [group, getD_eq_getElem?_getD, hi]
  | false =>
    have := hb rfl
    simp only [group, Bool.false_eq_true, if_false]
    rw [map_flatten]
    congr 1
    apply ext_getElem (by simp)
    intro j h1 h2
    simp [this j, this i]

omit [LinearOrder K] in
theorem Coef.get_num {c : Coef K} (h : c.isArr = false) (i : Nat) : c.get i = c.get 0 := by
  cases c with
  | num a => rfl
  | arr as => simp [Coef.isArr] at h

omit [LinearOrder K] in
theorem coef_entries_get {c : Coef K} {n : Nat} (hf : c.Fits n) (h0 : (0 : K) ∉ c.entries) {i : Nat}
    (hi : i < n) : c.get i ≠ 0 := Coef.get_ne_zero hf h0 hi

variable [IsStrictOrderedRing K]

/-- The parameters that are learned. -/
theorem learn_ok {sqrt : K → K} {sc : Scaling} {byrow : Bool} {k : Nat} {rows : List (List K)}
    {a b : Coef K} (h : learnScaling sqrt sc byrow k rows = .ok (a, b)) :
    a.isArr = byrow ∧ b.isArr = byrow ∧ a.Fits rows.length ∧ b.Fits rows.length ∧ (0 : K) ∉ a.entries ∧
      (∀ i < rows.length, Learned sqrt sc (group byrow rows i) (a.get i) (b.get i)) := by
  cases sc with
  | standard =>
    simp only [learnScaling, bind, Except.bind, pure, Except.pure] at h
    split at h
    · cases h
    rename_i mu hmu
    split at h
    · cases h
    rename_i sg hsg
    split at h
    · cases h
    rename_i a' ha
    simp only [Except.ok.injEq, Prod.mk.injEq] at h
    obtain ⟨rfl, rfl⟩ := h
    obtain ⟨k1, f1, g1, _⟩ := stat_ok hmu
    obtain ⟨k2, f2, g2, _⟩ := stat_ok hsg
    obtain ⟨z, k3, f3, g3, z3⟩ := recip_ok ha
    have kk : mu.isArr = a'.isArr := by rw [k1, k3, k2]
    obtain ⟨fz, kz⟩ := Coef.fits_zip (fun m a => -m * a) kk f1 (f3 _ f2)
    refine ⟨by rw [k3, k2], by rw [kz, k1], f3 _ f2, fz, z3 one_ne_zero, fun i hi => ?_⟩
    refine ⟨fun _ => ⟨_, _, g1 i hi, g2 i hi, coef_entries_get f2 z hi, g3 _ i f2 hi, ?_⟩,
      by simp, by simp, by simp, by simp⟩
    rw [Coef.get_zip _ kk f1 (f3 _ f2) hi]
  | minmax =>
    simp only [learnScaling, bind, Except.bind, pure, Except.pure] at h
    split at h
    · cases h
    rename_i lo hlo
    split at h
    · cases h
    rename_i hi' hhi
    split at h
    · cases h
    rename_i a' ha
    simp only [Except.ok.injEq, Prod.mk.injEq] at h
    obtain ⟨rfl, rfl⟩ := h
    obtain ⟨k1, f1, g1, _⟩ := stat_ok hlo
    obtain ⟨k2, f2, g2, _⟩ := stat_ok hhi
    obtain ⟨f12, k12⟩ := Coef.fits_zip (fun x y => x - y) (k2.trans k1.symm) f2 f1
    obtain ⟨z, k3, f3, g3, z3⟩ := recip_ok ha
    have kk : lo.isArr = a'.isArr := by rw [k1, k3, k12, k2]
    obtain ⟨fz, kz⟩ := Coef.fits_zip (fun m a => -m * a) kk f1 (f3 _ f12)
    refine ⟨by rw [k3, k12, k2], by rw [kz, k1], f3 _ f12, fz, z3 one_ne_zero, fun i hi => ?_⟩
    have e : (hi'.zip (fun x y => x - y) lo).get i = hi'.get i - lo.get i :=
      Coef.get_zip _ (k2.trans k1.symm) f2 f1 hi
    refine ⟨by simp, fun _ => ⟨_, _, g1 i hi, g2 i hi, ?_, ?_, ?_⟩, by simp, by simp, by simp⟩
    · rw [← e]; exact coef_entries_get f12 z hi
    · rw [← e]; exact g3 _ i f12 hi
    · rw [Coef.get_zip _ kk f1 (f3 _ f12) hi]
  | minmaxsym =>
    simp only [learnScaling, bind, Except.bind, pure, Except.pure] at h
    split at h
    · cases h
    rename_i lo hlo
    split at h
    · cases h
    rename_i hi' hhi
    split at h
    · cases h
    rename_i a' ha
    simp only [Except.ok.injEq, Prod.mk.injEq] at h
    obtain ⟨rfl, rfl⟩ := h
    obtain ⟨k1, f1, g1, _⟩ := stat_ok hlo
    obtain ⟨k2, f2, g2, _⟩ := stat_ok hhi
    obtain ⟨f12, k12⟩ := Coef.fits_zip (fun x y => x - y) (k2.trans k1.symm) f2 f1
    obtain ⟨z, k3, f3, g3, z3⟩ := recip_ok ha
    have kk : lo.isArr = a'.isArr := by rw [k1, k3, k12, k2]
    obtain ⟨fz, kz⟩ := Coef.fits_zip (fun m a => -m * a - 1) kk f1 (f3 _ f12)
    refine ⟨by rw [k3, k12, k2], by rw [kz, k1], f3 _ f12, fz, z3 two_ne_zero, fun i hi => ?_⟩
    have e : (hi'.zip (fun x y => x - y) lo).get i = hi'.get i - lo.get i :=
      Coef.get_zip _ (k2.trans k1.symm) f2 f1 hi
    refine ⟨by simp, by simp, fun _ => ⟨_, _, g1 i hi, g2 i hi, ?_, ?_, ?_⟩, by simp, by simp⟩
    · rw [← e]; exact coef_entries_get f12 z hi
    · rw [← e]; exact g3 _ i f12 hi
    · rw [Coef.get_zip _ kk f1 (f3 _ f12) hi]
  | maxabs =>
    simp only [learnScaling, bind, Except.bind, pure, Except.pure] at h
    split at h
    · cases h
    rename_i m hm
    split at h
    · cases h
    rename_i a' ha
    simp only [Except.ok.injEq, Prod.mk.injEq] at h
    obtain ⟨rfl, rfl⟩ := h
    obtain ⟨k1, f1, g1, _⟩ := stat_ok hm
    obtain ⟨z, k3, f3, g3, z3⟩ := recip_ok ha
    refine ⟨by rw [k3, k1], by cases byrow <;> rfl, f3 _ f1, by cases byrow <;> simp [Coef.Fits],
      z3 one_ne_zero, fun i hi => ?_⟩
    refine ⟨by simp, by simp, by simp,
      fun _ => ⟨_, g1 i hi, coef_entries_get f1 z hi, g3 _ i f1 hi, ?_⟩, by simp⟩
    cases byrow with
    | true => simp [Coef.get, getD_eq_getElem?_getD, hi]
    | false => simp [Coef.get]
  | maxabssym =>
    simp only [learnScaling, bind, Except.bind, pure, Except.pure] at h
    split at h
    · cases h
    rename_i mu hmu
    obtain ⟨k1, f1, g1, _⟩ := stat_ok hmu
    rw [Snap.op_fits _ (show mu.Fits (Snap.mat k rows).len from f1)] at h
    simp only [Snap.rowMap] at h
    split at h
    · cases h
    rename_i m hm
    split at h
    · cases h
    rename_i a' ha
    simp only [Except.ok.injEq, Prod.mk.injEq] at h
    obtain ⟨rfl, rfl⟩ := h
    obtain ⟨k2, f2, g2, _⟩ := stat_ok hm
    rw [length_mapIdx] at f2 g2
    obtain ⟨z, k3, f3, g3, z3⟩ := recip_ok ha
    have kk : mu.isArr = a'.isArr := by rw [k1, k3, k2]
    obtain ⟨fz, kz⟩ := Coef.fits_zip (fun m a => -m * a) kk f1 (f3 _ f2)
    refine ⟨by rw [k3, k2], by rw [kz, k1], f3 _ f2, fz, z3 one_ne_zero, fun i hi => ?_⟩
    refine ⟨by simp, by simp, by simp, by simp,
      fun _ => ⟨_, _, g1 i hi, ?_, coef_entries_get f2 z hi, g3 _ i f2 hi, ?_⟩⟩
    · have := g2 i hi
      rw [group_rowMap byrow rows (fun i y => y - mu.get i) (fun hb i => by
        rw [Coef.get_num (k1.trans hb) i]) i hi] at this
      exact this
    · rw [Coef.get_zip _ kk f1 (f3 _ f2) hi]
  | maxnorm =>
    cases byrow with
    | true => simp [learnScaling] at h
    | false =>
      simp only [learnScaling, Bool.false_eq_true, if_false, bind, Except.bind, pure, Except.pure] at h
      split at h
      · cases h
      rename_i m hm
      split at h
      · cases h
      rename_i a' ha
      simp only [Except.ok.injEq, Prod.mk.injEq] at h
      obtain ⟨rfl, rfl⟩ := h
      obtain ⟨z, k3, f3, g3, z3⟩ := recip_ok ha
      exact ⟨k3, rfl, f3 _ trivial, trivial, z3 one_ne_zero, fun i hi =>
        ⟨by simp, by simp, by simp, by simp, by simp⟩⟩
  | maxnormsym =>
    cases byrow with
    | true => simp [learnScaling] at h
    | false =>
      simp only [learnScaling, Bool.false_eq_true, if_false, bind, Except.bind, pure, Except.pure] at h
      split at h
      · cases h
      rename_i mu hmu
      split at h
      · cases h
      rename_i m hm
      split at h
      · cases h
      rename_i a' ha
      simp only [Except.ok.injEq, Prod.mk.injEq] at h
      obtain ⟨rfl, rfl⟩ := h
      obtain ⟨z, k3, f3, g3, z3⟩ := recip_ok ha
      have hk : (Coef.num mu).isArr = a'.isArr := by rw [k3]; rfl
      obtain ⟨fz, kz⟩ := Coef.fits_zip (fun m a => -m * a) hk (n := rows.length) trivial (f3 _ trivial)
      exact ⟨k3, kz, f3 _ trivial, fz, z3 one_ne_zero, fun i hi =>
        ⟨by simp, by simp, by simp, by simp, by simp⟩⟩

/-- The data after centering. -/
def centered (s : Sst K) (rows : List (List K)) : List (List K) :=
  rows.mapIdx fun i row => row.map (· - s.center i)

/-- What a successful calibration does. -/
structure FitOk (sqrt : K → K) (s s' : Sst K) (k : Nat) (rows : List (List K)) (Z : Snap K) : Prop where
  centering : s'.centering = s.centering
  scaling : s'.scaling = s.scaling
  byrow : s'.byrow = s.byrow
  name : s'.name = s.name
  verbose : s'.verbose = s.verbose
  ready : s'.Ready rows.length
  mean : s.centering = true → ∃ mu, s'.mean = some mu ∧ rows.mapM meanOf = .ok mu
  learned : ∀ sc, s.scaling = some sc → ∃ a b, s'.alpha = some a ∧ s'.beta = some b ∧
    learnScaling sqrt sc s.byrow k (centered s' rows) = .ok (a, b)
  keepMean : s.centering = false → s'.mean = s.mean
  keepScale : s.scaling = none → s'.alpha = s.alpha ∧ s'.beta = s.beta
  result : Z = (Snap.mat k rows).rowMap fun i y => s'.factor i * (y - s'.center i) + s'.offset i
  transform : s'.transform (.mat k rows) = .ok Z

theorem sst_fit_ok {sqrt : K → K} {s s' : Sst K} {k : Nat} {rows : List (List K)} {Z : Snap K}
    (h : s.fitTransform sqrt (.mat k rows) = (s', .ok Z)) : FitOk sqrt s s' k rows Z := by
  suffices hs : s'.centering = s.centering ∧ s'.scaling = s.scaling ∧ s'.byrow = s.byrow ∧
      s'.name = s.name ∧ s'.verbose = s.verbose ∧ s'.Ready rows.length ∧
      (s.centering = true → ∃ mu, s'.mean = some mu ∧ rows.mapM meanOf = .ok mu) ∧
      (∀ sc, s.scaling = some sc → ∃ a b, s'.alpha = some a ∧ s'.beta = some b ∧
        learnScaling sqrt sc s.byrow k (centered s' rows) = .ok (a, b)) ∧
      (s.centering = false → s'.mean = s.mean) ∧
      (s.scaling = none → s'.alpha = s.alpha ∧ s'.beta = s.beta) ∧
      Z = (Snap.mat k rows).rowMap fun i y => s'.factor i * (y - s'.center i) + s'.offset i by
    obtain ⟨h1, h2, h3, h4, h5, h6, h7, h8, h9, h10, h11⟩ := hs
    refine ⟨h1, h2, h3, h4, h5, h6, h7, h8, h9, h10, h11, ?_⟩
    rw [sst_transform_eq h6 rfl, h11]
    congr 1
    apply Snap.rowMap_congr
    intro i _ y
    simp only [Sst.const]
    ring
  unfold Sst.fitTransform at h
  simp only at h
  cases hcen : s.centering with
  | false =>
    simp only [hcen, Bool.false_eq_true, if_false] at h
    cases hsc : s.scaling with
    | none =>
      simp only [hsc, Prod.mk.injEq, Except.ok.injEq] at h
      obtain ⟨rfl, rfl⟩ := h
      refine ⟨rfl, rfl, rfl, rfl, rfl, ⟨rfl, ?_, ?_⟩, by simp, by simp, by simp, by simp, ?_⟩
      · intro hh; simp at hh
      · intro hh; simp at hh
      · rw [Snap.rowMap_eq_self]
        intro i _ y
        simp [Sst.factor, Sst.center, Sst.offset]
    | some sc =>
      simp only [hsc] at h
      split at h
      · simp at h
      rename_i a b hl
      obtain ⟨q1, q2, q3, q4, q5, _⟩ := learn_ok hl
      simp only [Prod.mk.injEq] at h
      obtain ⟨rfl, hZ⟩ := h
      refine ⟨rfl, rfl, rfl, rfl, rfl, ⟨rfl, ?_, ?_⟩, by simp, ?_, by simp, by simp, ?_⟩
      · intro hh; simp at hh
      · intro _; exact ⟨a, b, rfl, rfl, q1, q2, q3, q4, q5⟩
      · intro sc' hsc'
        simp only [Option.some.injEq] at hsc'
        subst hsc'
        refine ⟨a, b, rfl, rfl, ?_⟩
        have : centered ⟨false, some sc, s.byrow, s.name, s.verbose, some rows.length, s.mean, some a, some b⟩ rows =
            rows := by
          have := Snap.rowMap_eq_self (Y := Snap.mat k rows) (f := fun i y => y -
            Sst.center ⟨false, some sc, s.byrow, s.name, s.verbose, some rows.length, s.mean, some a, some b⟩ i)
            (by intro i _ y; simp [Sst.center])
          simpa [Snap.rowMap, centered] using this
        rw [← this] at hl
        exact hl
      · rw [Snap.op_fits _ (show a.Fits (Snap.mat k rows).len from q3)] at hZ
        simp only [bind, Except.bind] at hZ
        rw [Snap.op_fits _ (by rw [Snap.len_rowMap]; exact q4), Snap.rowMap_rowMap] at hZ
        simp only [Except.ok.injEq] at hZ
        rw [← hZ]
        apply Snap.rowMap_congr
        intro i _ y
        simp [Sst.factor, Sst.center, Sst.offset, mul_comm]
  | true =>
    simp only [hcen, if_true] at h
    cases hmu : rows.mapM meanOf with
    | error e => simp [hmu, Except.map] at h
    | ok mu =>
      have hml := mapM_ok_length hmu
      simp only [hmu, Except.map] at h
      rw [Snap.op_fits _ (show (Coef.arr mu).Fits (Snap.mat k rows).len from hml)] at h
      simp only [Snap.rowMap] at h
      cases hsc : s.scaling with
      | none =>
        simp only [hsc, Prod.mk.injEq, Except.ok.injEq] at h
        obtain ⟨rfl, rfl⟩ := h
        refine ⟨rfl, rfl, rfl, rfl, rfl, ⟨rfl, ?_, ?_⟩, fun _ => ⟨mu, rfl, rfl⟩, by simp, by simp,
          by simp, ?_⟩
        · intro _; exact ⟨mu, rfl, hml⟩
        · intro hh; simp at hh
        · simp [Snap.rowMap, Sst.factor, Sst.center, Sst.offset, Coef.get]
      | some sc =>
        simp only [hsc] at h
        split at h
        · simp at h
        rename_i a b hl
        obtain ⟨q1, q2, q3, q4, q5, _⟩ := learn_ok hl
        rw [length_mapIdx] at q3 q4
        simp only [Prod.mk.injEq] at h
        obtain ⟨rfl, hZ⟩ := h
        refine ⟨rfl, rfl, rfl, rfl, rfl, ⟨rfl, ?_, ?_⟩, fun _ => ⟨mu, rfl, rfl⟩, ?_, by simp, by simp, ?_⟩
        · intro _; exact ⟨mu, rfl, hml⟩
        · intro _; exact ⟨a, b, rfl, rfl, q1, q2, q3, q4, q5⟩
        · intro sc' hsc'
          simp only [Option.some.injEq] at hsc'
          subst hsc'
          refine ⟨a, b, rfl, rfl, ?_⟩
          simp only [centered, Sst.center, if_true, Option.map_some, Option.getD_some]
          simpa [Coef.get] using hl
        · rw [Snap.op_fits _ (by simpa [Snap.len] using q3)] at hZ
          simp only [bind, Except.bind] at hZ
          rw [Snap.op_fits _ (by rw [Snap.len_rowMap]; simpa [Snap.len] using q4)] at hZ
          simp only [Except.ok.injEq] at hZ
          rw [← hZ]
          have e : Snap.mat k (rows.mapIdx fun i row => row.map fun y => y - (Coef.arr mu).get i) =
            (Snap.mat k rows).rowMap fun i y => y - (Coef.arr mu).get i := rfl
          rw [e, Snap.rowMap_rowMap, Snap.rowMap_rowMap]
          apply Snap.rowMap_congr
          intro i _ y
          simp [Sst.factor, Sst.center, Sst.offset, mul_comm, Coef.get]

end Opinf
