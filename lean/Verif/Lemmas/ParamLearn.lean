import Verif.Lemmas.ParamProcess

/-!
# Parametric models: data blocks and learned entries of a single operator
-/

namespace Opinf

open List

variable {K S : Type}

/-- A one-dimensional array of length one and its element are the same parameter value. -/
def Par.norm : Par K → Par K
  | .vec [x] => .scalar x
  | mu => mu

theorem Par.dim_norm (mu : Par K) : mu.norm.dim = mu.dim := by
  unfold Par.norm
  split <;> rfl

theorem toPars_ofPars {ps : List (Par K)} {P : PArr K} (h : PArr.ofPars ps = .ok P) :
    P.toPars = ps.map Par.norm := by
  cases ps with
  | nil => simp [PArr.ofPars] at h
  | cons mu ps =>
    simp only [PArr.ofPars] at h
    by_cases hany : ((mu :: ps).any fun x => decide (x.shape ≠ mu.shape)) = true
    · rw [if_pos hany] at h; simp at h
    · rw [if_neg hany] at h
      have hall : ∀ x ∈ mu :: ps, x.shape = mu.shape := by
        intro x hx
        by_contra hne
        exact hany (any_eq_true.mpr ⟨x, hx, by simpa using hne⟩)
      have hone : ∀ l : List (Par K), (∀ x ∈ l, ∃ c, x.toList = [c] ∧ x.norm = .scalar c) →
          (l.flatMap Par.toList).map Par.scalar = l.map Par.norm := by
        intro l
        induction l with
        | nil => simp
        | cons a l ih =>
          intro hl
          obtain ⟨c, h1, h2⟩ := hl a (by simp)
          rw [flatMap_cons, map_append, ih fun x hx => hl x (by simp [hx]), h1, map_cons, map_cons, h2]
          rfl
      cases hs : mu.shape with
      | none =>
        rw [hs] at h
        simp only [Except.ok.injEq] at h
        subst h
        apply hone
        intro x hx
        have := hall x hx
        rw [hs] at this
        cases x with
        | scalar c => exact ⟨c, rfl, rfl⟩
        | vec xs => simp [Par.shape] at this
      | some p =>
        rw [hs] at h
        simp only at h
        by_cases hp : p = 1
        · rw [if_pos hp] at h
          simp only [Except.ok.injEq] at h
          subst h
          apply hone
          intro x hx
          have := hall x hx
          rw [hs, hp] at this
          cases x with
          | scalar c => simp [Par.shape] at this
          | vec xs =>
            simp only [Par.shape, Option.some.injEq] at this
            obtain ⟨c, rfl⟩ := length_eq_one_iff.mp this
            exact ⟨c, rfl, rfl⟩
        · rw [if_neg hp] at h
          simp only [Except.ok.injEq] at h
          subst h
          simp only [PArr.toPars, map_map]
          apply map_congr_left
          intro x hx
          have := hall x hx
          rw [hs] at this
          cases x with
          | scalar c => simp [Par.shape] at this
          | vec xs =>
            simp only [Par.shape, Option.some.injEq] at this
            simp only [Function.comp, Par.toList, Par.norm]
            split
            · next h => cases h; simp at this; omega
            · next h => rfl

theorem paramsDim_ok {ps : List (Par K)} {d : Nat} (h : paramsDim ps = .ok d) : ∀ mu ∈ ps, mu.dim = d := by
  cases ps with
  | nil => simp
  | cons mu ps =>
    simp only [paramsDim] at h
    split at h
    · cases h
    · rename_i hany
      cases h
      intro x hx
      have hsh : x.shape = mu.shape := by
        by_contra hne
        exact hany (any_eq_true.mpr ⟨x, hx, by simpa using hne⟩)
      cases x <;> cases mu <;> simp_all [Par.shape, Par.dim]

theorem Interp.evaluate_norm [AddMonoid K] (lib : ItpLib K) (t : Interp K) (mu : Par K)
    (h : t.p = some mu.dim) : t.evaluate lib mu = t.evaluate lib mu.norm := by
  have hu : t.unwrap mu = t.unwrap mu.norm := by
    unfold Par.norm
    split
    · simp only [Interp.unwrap, h, Par.dim, length_singleton]
    · rfl
  simp only [Interp.evaluate, hu, Par.dim_norm]

section

variable [LinearOrder K]

/-- What is assumed of an operator to infer: an affine operator has one or more terms and as many
coefficients at every training parameter; an interpolated operator gets different training parameters and
uses a class that interpolates. -/
def POp.Learnable (lib : ItpLib K) (ps : List (Par K)) : POp K → Prop
  | .np _ => True
  | .aff a => 0 < a.nterms ∧ ∀ mu ∈ ps, ∃ th, a.Coefs mu th
  | .itp t => (ps.map Par.norm).Nodup ∧ (∀ c ∈ t.cls, Interpolates lib c) ∧
      (t.cls = none → Interpolates lib .cubic ∧ Interpolates lib .linearND)

/-- The operator is prepared for learning: the parameter dimension and (if interpolated) the training
parameters are set. -/
def POp.Ready (ps : List (Par K)) (d : Nat) : POp K → Prop
  | .np _ => True
  | .aff a => a.p = some d
  | .itp t => ∃ P, PArr.ofPars ps = .ok P ∧ t.params = some P ∧ t.p = some P.dim

/-- The data block of one operator and what its learned entries do: every `r × d` block `B` that is
accepted gives an operator whose value on each training sample is `B` times the column of the sample. -/
def POp.LearnsWith [CommSemiring K] (lib : ItpLib K) (r m n : Nat) (ps : List (Par K))
    (smp : List (Par K × List K × Option (List K))) (o : POp K) (cols : List (List K)) : Prop :=
  cols.length = smp.length ∧ (∀ c ∈ cols, c.length = o.dim n r m) ∧
  ∀ (B : Mat K) (o' : POp K), B.WF → B.nrows = r → B.ncols = o.dim n r m →
    o.setBlock lib B = (o', .ok ()) →
    o'.kind = o.kind ∧ (∀ mu ∈ ps, ∃ op, o'.EvalsTo lib mu r m op) ∧
    ∀ (j : Nat) y c, smp[j]? = some y → cols[j]? = some c → o'.val lib y.1 y.2.1 y.2.2 = matVec B.rows c

omit [LinearOrder K] in
theorem forall₂_getElem? {α β : Type} {R : α → β → Prop} {l : List α} {l' : List β} (h : Forall₂ R l l')
    {j : Nat} {a : α} {b : β} (ha : l[j]? = some a) (hb : l'[j]? = some b) : R a b := by
  induction h generalizing j with
  | nil => simp at ha
  | cons hab _ ih =>
    cases j with
    | zero => simp at ha hb; rw [← ha, ← hb]; exact hab
    | succ j => exact ih (by simpa using ha) (by simpa using hb)

omit [LinearOrder K] in
theorem val_of_yields [CommSemiring K] {lib : ItpLib K} {o : POp K} {r m : Nat}
    {y : Par K × List K × Option (List K)} {v : List K}
    (he : ∃ op, o.EvalsTo lib y.1 r m op) (hq : y.2.1.length = r) (hu : InputOK o.kind m y.2.2)
    (h : Yields (o.apply lib y.1 (.vec y.2.1) (y.2.2.map .vec)) v) : o.val lib y.1 y.2.1 y.2.2 = v := by
  obtain ⟨op, hop⟩ := he
  exact (hop.yields y.2.1 y.2.2 hq hu).1.unique h

theorem POp.learns_np [Field K] (lib : ItpLib K) (o : Op K) (r m : Nat) (hr : 0 < r) (hasIn : Bool)
    (hi : o.kind.hasInputs = true → hasIn = true) (data : List (PSet K)) (hne : data ≠ [])
    (hd : ∀ x ∈ data, x.OK r m hasIn) (ps : List (Par K)) :
    ∃ cols, (POp.np o).block r m data = .ok cols ∧
      (POp.np o).LearnsWith lib r m data.length ps (dataSamples (data.map PSet.triple)) cols := by
  have hdok := PSet.OK.dataOK (o := o.kind) hi hd
  have hcols : data.flatMap (fun x => o.kind.block x.states (x.inputs.map Prod.snd))
      = (dataSamples (data.map PSet.triple)).map fun y => o.kind.dataCol y.2.1 (y.2.2.getD []) := by
    clear hdok hne
    induction data with
    | nil => rfl
    | cons x data ih =>
      rw [flatMap_cons, map_cons, samples_cons, map_append, ih (fun x hx => hd x (mem_cons_of_mem _ hx))]
      congr 1
      have := PSet.OK.dataOK (o := o.kind) (data := [x]) hi
        (fun z hz => by rw [mem_singleton.mp hz]; exact hd x mem_cons_self)
      exact block_samples (this x.triple (by simp))
  have hlen : ∀ y ∈ dataSamples (data.map PSet.triple),
      (o.kind.dataCol y.2.1 (y.2.2.getD [])).length = o.kind.dim r m := by
    intro y hy
    obtain ⟨hq, hu, -⟩ := mem_samples hdok hy
    rw [dataCol_length, hq]
    by_cases hin : o.kind.hasInputs = true
    · obtain ⟨v, hv, hvl⟩ := hu hin
      rw [hv, Option.getD_some, hvl]
    · exact dim_ignores_input _ (by simpa using hin) _ _ _
  refine ⟨_, by simp only [POp.block]; rw [if_neg (by simpa using hne)], ?_, ?_, ?_⟩
  · rw [hcols, length_map]
  · intro c hc
    rw [hcols] at hc
    obtain ⟨y, hy, rfl⟩ := mem_map.mp hc
    exact hlen y hy
  · intro B o' hB hBr hBc hset
    have hF : o.kind.Fits B r m := ⟨hB, hBr, hBc⟩
    simp only [POp.setBlock, setEntries_fits o.kind B r m hr hF, Prod.mk.injEq, and_true] at hset
    subst hset
    have hev : ∀ mu : Par K, (POp.np ⟨o.kind, some B⟩).EvalsTo lib mu r m ⟨o.kind, some B⟩ :=
      fun mu => ⟨rfl, rfl, B, rfl, hF⟩
    refine ⟨rfl, fun mu _ => ⟨_, hev mu⟩, ?_⟩
    intro j y c hy hc
    have h1 := (hev y.1).val_eq y.2.1 y.2.2
    rw [hcols, getElem?_map, hy] at hc
    simp only [Option.map_some, Option.some.injEq] at hc
    rw [← hc]
    exact h1

theorem POp.learns_aff [Field K] (lib : ItpLib K) (a : Affine K) (r m : Nat) (hr : 0 < r) (hasIn : Bool)
    (hi : a.kind.hasInputs = true → hasIn = true) (data : List (PSet K)) (hne : data ≠ [])
    (hd : ∀ x ∈ data, x.OK r m hasIn) (hl : (POp.aff a).Learnable lib (data.map PSet.mu)) (d : Nat)
    (hdim : ∀ mu ∈ data.map PSet.mu, mu.dim = d) (hready : (POp.aff a).Ready (data.map PSet.mu) d) :
    ∃ cols, (POp.aff a).block r m data = .ok cols ∧
      (POp.aff a).LearnsWith lib r m data.length (data.map PSet.mu)
        (dataSamples (data.map PSet.triple)) cols := by
  obtain ⟨hn, hco⟩ := hl
  have hp : a.p = some d := hready
  have hdok := PSet.OK.dataOK (o := a.kind) hi hd
  have hc : ∀ x ∈ data.map PSet.triple, a.Accepts x.1 ∧ ∃ th, a.Coefs x.1 th := by
    intro x hx
    obtain ⟨z, hz, rfl⟩ := mem_map.mp hx
    have hm : z.mu ∈ data.map PSet.mu := mem_map.mpr ⟨z, hz, rfl⟩
    exact ⟨Or.inr (by rw [hp]; exact congrArg some (hdim _ hm).symm), hco _ hm⟩
  have hbase : ∀ B : Mat K, B.WF → B.nrows = r → B.ncols = a.dim r m →
      ∃ a' As cols, a.setEntries (.block B) = .ok a' ∧ a'.Holds As r m ∧
        a.block (data.map PSet.triple) = .ok cols ∧
        Forall₂ (fun col y => col.length = a.dim r m ∧
          Yields (a'.apply y.1 (.vec y.2.1) (y.2.2.map .vec)).2 (matVec B.rows col))
          cols (dataSamples (data.map PSet.triple)) :=
    fun B hB hBr hBc => C09_block a r m hr hn B hB hBr hBc _ hdok (by simpa using hne) hc
  obtain ⟨_, _, cols, _, _, hcols, hF0⟩ := hbase ⟨r, a.dim r m, replicate r (replicate (a.dim r m) 0)⟩
    ⟨by simp, by simp⟩ rfl rfl
  refine ⟨cols, hcols, hF0.length_eq, ?_, ?_⟩
  · intro c hc'
    obtain ⟨y, -, hy⟩ := forall₂_mem_right hF0.flip hc'
    exact hy.1
  · intro B o' hB hBr hBc hset
    obtain ⟨a', As, cols', e1, e2, e3, e4⟩ := hbase B hB hBr hBc
    have : cols' = cols := by rw [hcols] at e3; exact (Except.ok.inj e3).symm
    subst this
    simp only [POp.setBlock, e1, Prod.mk.injEq, and_true] at hset
    subst hset
    have ha' : a'.kind = a.kind ∧ a'.p = a.p ∧ a'.nterms = a.nterms ∧ a'.coeffs = a.coeffs := by
      unfold Affine.setEntries at e1
      split at e1
      · cases e1
      · cases e1; exact ⟨rfl, rfl, rfl, rfl⟩
    obtain ⟨k1, k2, k3, k4⟩ := ha'
    have hev : ∀ mu ∈ data.map PSet.mu, ∃ op, (POp.aff a').EvalsTo lib mu r m op := by
      intro mu hmu
      obtain ⟨th, t1, t2⟩ := hco mu hmu
      have t1' : a'.thetas mu = .ok th := by
        rw [← t1]; unfold Affine.thetas; rw [k3, k4]
      have hne' : th ≠ [] := by
        intro h0; rw [h0] at t2; simp at t2; omega
      have hA : As ≠ [] := by
        intro h0; have := e2.count; rw [h0, k3] at this; simp at this; omega
      have hE := Affine.evaluate_eq a' As r m hr e2 mu (Or.inr (by rw [k2, hp, hdim mu hmu])) th t1' hne'
      refine ⟨⟨a'.kind, some (weightedSum th As)⟩, ?_, rfl, _, rfl,
        (weightedSum_spec (o := a'.kind) (r := r) (m := m) th As e2.fits hne' hA).1⟩
      simp only [POp.evaluate, hE]
    refine ⟨k1, hev, ?_⟩
    intro j y c hy hc'
    obtain ⟨hq, hu, -, x, hx, hxy⟩ := mem_samples hdok (mem_of_getElem? hy)
    obtain ⟨z, hz, rfl⟩ := mem_map.mp hx
    refine val_of_yields (m := m) (hev _ (mem_map.mpr ⟨z, hz, hxy⟩)) hq (by rw [POp.kind, k1]; exact hu) ?_
    exact (forall₂_getElem? e4 hc' hy).2

theorem POp.learns_itp [Field K] (lib : ItpLib K) (t : Interp K) (r m : Nat) (hr : 0 < r) (hasIn : Bool)
    (hi : t.kind.hasInputs = true → hasIn = true) (data : List (PSet K))
    (hd : ∀ x ∈ data, x.OK r m hasIn) (hl : (POp.itp t).Learnable lib (data.map PSet.mu)) (d : Nat)
    (hready : (POp.itp t).Ready (data.map PSet.mu) d) :
    ∃ cols, (POp.itp t).block r m data = .ok cols ∧
      (POp.itp t).LearnsWith lib r m data.length (data.map PSet.mu)
        (dataSamples (data.map PSet.triple)) cols := by
  obtain ⟨hnd, hcls, hdef⟩ := hl
  obtain ⟨P, hP, hpar, hp⟩ := hready
  obtain ⟨w1, w2, w3⟩ := ofPars_wf hP
  have htp := toPars_ofPars hP
  have hdok := PSet.OK.dataOK (o := t.kind) hi hd
  rw [length_map] at w2
  -- the same data with normalised parameters
  let data' := data.map fun x => (x.mu.norm, x.states, x.inputs.map Prod.snd)
  have hdok' : DataOK t.kind r m data' := by
    intro y hy
    obtain ⟨x, hx, rfl⟩ := mem_map.mp hy
    exact hdok x.triple (mem_map.mpr ⟨x, hx, rfl⟩)
  have hmus : data'.map Prod.fst = P.toPars := by
    rw [htp, map_map, map_map]; rfl
  have hblk : interpBlock t.kind r m (data.map PSet.triple) = interpBlock t.kind r m data' := by
    simp only [interpBlock, data', length_map, mapIdx_eq_zipIdx_map, zipIdx_map, map_map]
    rfl
  have hsmp : dataSamples data'
      = (dataSamples (data.map PSet.triple)).map fun y => (y.1.norm, y.2.1, y.2.2) := by
    simp only [data']
    clear * -
    induction data with
    | nil => rfl
    | cons x data ih =>
      rw [map_cons, map_cons, samples_cons, samples_cons x.triple, map_append, ih]
      congr 1
      obtain ⟨mu, n, Q, U⟩ := x
      cases U <;> simp [dataSamples, PSet.triple, Function.comp_def]
  have hwidth : ∀ c ∈ interpBlock t.kind r m (data.map PSet.triple),
      c.length = interpDim t.kind data.length r m := by
    intro c hc
    simp only [interpBlock, mem_flatten, length_map] at hc
    obtain ⟨l, hl, hcl⟩ := hc
    obtain ⟨i, hi', rfl⟩ := mem_mapIdx.mp hl
    rw [length_map] at hi'
    simp only [padBlock, mem_map] at hcl
    obtain ⟨c', hc', rfl⟩ := hcl
    have hx := hdok ((data.map PSet.triple)[i]'(by simpa using hi')) (getElem_mem _)
    rw [block_samples hx] at hc'
    obtain ⟨y, hy, rfl⟩ := mem_map.mp hc'
    have h3 := (mem_samples_one (o := t.kind) (by intro z hz; rw [mem_singleton.mp hz]; exact hx) hy).2.2
    have h4 : (t.kind.dataCol y.2.1 (y.2.2.getD [])).length = t.kind.dim r m := h3
    simp only [length_append, length_replicate, h4, interpDim]
    rw [← Nat.succ_mul, ← Nat.add_mul]
    congr 1
    omega
  have hlenb : (interpBlock t.kind r m (data.map PSet.triple)).length
      = (dataSamples (data.map PSet.triple)).length := by
    have hb2 : ∀ x ∈ data.map PSet.triple, (t.kind.block x.2.1 x.2.2).length = (dataSamples [x]).length := by
      intro x hx
      rw [block_samples (hdok x hx), length_map]
    rw [interpBlock, length_flatten, dataSamples_flatten, length_flatten]
    congr 1
    rw [map_map]
    apply ext_getElem (by simp)
    intro i h1 h2
    simp only [getElem_map, getElem_mapIdx, padBlock, length_map, Function.comp]
    exact hb2 _ (mem_map.mpr ⟨_, getElem_mem _, rfl⟩)
  refine ⟨_, rfl, hlenb, hwidth, ?_⟩
  intro B o' hB hBr hBc hset
  have hBc' : B.ncols = interpDim t.kind P.length r m := by rw [hBc, w2]; rfl
  simp only [POp.setBlock, Prod.mk.injEq] at hset
  obtain ⟨ho', hok⟩ := hset
  obtain ⟨t', ht'⟩ : ∃ t', t.setEntries lib (.block B) = (t', .ok ()) := ⟨_, Prod.ext rfl hok⟩
  rw [ht'] at ho'
  subst ho'
  set As := (range P.length).map (blockAt B (t.kind.dim r m)) with hAs
  have hfit : ∀ A ∈ As, t.kind.Fits A r m := by
    intro A hA
    obtain ⟨i, hi, rfl⟩ := mem_map.mp hA
    exact blockAt_fits hB hBr hBc' (mem_range.mp hi)
  have hlA : As.length = P.length := by simp [hAs]
  have hshape : t' = interpOf t.kind t.cls P As ∧
      lib.build (itpData t.cls P As).1 (itpData t.cls P As).2.1 (itpData t.cls P As).2.2 = .ok () := by
    have hparse : parseEntries t.kind P.length (.block B) = .ok As :=
      parseEntries_block t.kind r m P.length hr w1.1 B hB hBr hBc'
    have hset2 : t.setEntries lib (.list As) = (t', .ok ()) := by
      rw [← ht']
      simp only [Interp.setEntries, hpar, hparse, parseEntries_list t.kind r m P.length hr As hfit hlA]
    rw [Interp.setEntries_eq lib t P hpar r m hr As hlA hfit] at hset2
    cases hb : lib.build (itpData t.cls P As).1 (itpData t.cls P As).2.1 (itpData t.cls P As).2.2 with
    | error e => rw [hb] at hset2; simp at hset2
    | ok u =>
      rw [hb] at hset2
      simp only [Prod.mk.injEq, and_true, hpar, hp] at hset2
      exact ⟨hset2.symm, rfl⟩
  obtain ⟨rfl, hb⟩ := hshape
  have hint : Interpolates lib (itpData t.cls P As).1 := by
    cases hc : t.cls with
    | some c => exact hcls c (by rw [hc]; rfl)
    | none =>
      cases P with
      | one xs => exact (hdef hc).1
      | two p rows => exact (hdef hc).2
  have hnd' : P.toPars.Nodup := by rw [htp]; exact hnd
  have hev : ∀ mu ∈ data.map PSet.mu, ∃ op, (POp.itp (interpOf t.kind t.cls P As)).EvalsTo lib mu r m op := by
    intro mu hmu
    have hmem : mu.norm ∈ P.toPars := by rw [htp]; exact mem_map.mpr ⟨mu, hmu, rfl⟩
    obtain ⟨i, hi', hie⟩ := mem_iff_getElem.mp hmem
    have hiP : i < P.length := by rwa [PArr.length_toPars] at hi'
    have hz : (mu.norm, As[i]'(by omega)) ∈ zip P.toPars As := by
      rw [mem_iff_getElem]
      exact ⟨i, by simp [PArr.length_toPars, hlA, hiP], by simp [hie]⟩
    refine ⟨⟨t.kind, some (As[i]'(by omega))⟩, ?_, rfl, _, rfl, hfit _ (getElem_mem _)⟩
    simp only [POp.evaluate]
    rw [Interp.evaluate_norm lib (interpOf t.kind t.cls P As) mu (by
      show some P.dim = _; rw [w3 mu hmu])]
    exact Interp.evaluate_node lib t.kind t.cls P w1 r m hr As hlA hfit hb hint hnd' _ _ hz
  refine ⟨rfl, hev, ?_⟩
  have hC := (C12_block lib t P w1 hpar hp hnd' r m hr B hB hBr hBc' _ ht' (by
    intro c hc
    have : some (itpData t.cls P As).1 = some c := hc
    rw [← Option.some.inj this]; exact hint) data' hdok' hmus).2
  rw [← hblk, hsmp, forall₂_map_right_iff] at hC
  intro j y c hy hc
  have hyc := (forall₂_getElem? hC hc hy).2
  obtain ⟨hq, hu, -, x, hx, hxy⟩ := mem_samples hdok (mem_of_getElem? hy)
  obtain ⟨z, hz, rfl⟩ := mem_map.mp hx
  have hmu : y.1 ∈ data.map PSet.mu := mem_map.mpr ⟨z, hz, hxy⟩
  refine val_of_yields (m := m) (hev _ hmu) hq hu ?_
  simp only [POp.apply, Interp.apply] at hyc ⊢
  rw [Interp.evaluate_norm lib (interpOf t.kind t.cls P As) y.1 (by
    show some P.dim = _; rw [w3 _ hmu])]
  exact hyc

/-- Data block and learned entries of any operator to infer. -/
theorem POp.learns [Field K] (lib : ItpLib K) (o : POp K) (r m : Nat) (hr : 0 < r) (hasIn : Bool)
    (hi : o.kind.hasInputs = true → hasIn = true) (data : List (PSet K)) (hne : data ≠ [])
    (hd : ∀ x ∈ data, x.OK r m hasIn) (hl : o.Learnable lib (data.map PSet.mu)) (d : Nat)
    (hdim : ∀ mu ∈ data.map PSet.mu, mu.dim = d) (hready : o.Ready (data.map PSet.mu) d) :
    ∃ cols, o.block r m data = .ok cols ∧
      o.LearnsWith lib r m data.length (data.map PSet.mu) (dataSamples (data.map PSet.triple)) cols := by
  cases o with
  | np o => exact POp.learns_np lib o r m hr hasIn hi data hne hd _
  | aff a => exact POp.learns_aff lib a r m hr hasIn hi data hne hd hl d hdim hready
  | itp t => exact POp.learns_itp lib t r m hr hasIn hi data hd hl d hready

end

end Opinf
