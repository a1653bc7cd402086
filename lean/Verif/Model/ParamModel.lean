import Verif.Model.Interp

/-!
# Parametric monolithic models

Models `/repo/src/opinf/models/mono/_parametric.py` and the parts of
`/repo/src/opinf/models/mono/_base.py` it inherits.

Simplifications, besides those of `Verif.Model.Mono`, `Verif.Model.Affine` and `Verif.Model.Interp`:
* operators are objects of the nonparametric, affine and interpolated classes (no user-defined ones, no
  abbreviations, which exist for the interpolated models only);
* a model without input operators ignores the inputs passed to `fit` (the code hands them to operators
  that ignore them);
* the state left behind by a rejected assignment to `operators` is not modelled.
-/

namespace Opinf

open List

variable {K S : Type}

/-- An operator of a parametric model. -/
inductive POp (K : Type)
  | np (o : Op K)
  | aff (a : Affine K)
  | itp (t : Interp K)

/-- The nonparametric class (`op._OperatorClass` or `type(op)`): _parametric.py:66-77. -/
def POp.kind : POp K → OpKind
  | .np o => o.kind
  | .aff a => a.kind
  | .itp t => t.kind

/-- The array whose shape is `op.shape`: `entries` or `entries[0]` (_base.py:1250-1283). -/
def POp.first : POp K → Option (Mat K)
  | .np o => o.entries
  | .aff a => a.entries.bind head?
  | .itp t => t.entries.bind head?

/-- `op.entries is not None`. -/
def POp.isCal : POp K → Bool
  | .np o => o.entries.isSome
  | .aff a => a.entries.isSome
  | .itp t => t.entries.isSome

/-- `op.state_dimension`. -/
def POp.stateDim (o : POp K) : Option Nat := o.first.map Mat.nrows

/-- `op.input_dimension`: _affine.py:711-714, 757-763; _interpolate.py:826-829, 879-885. -/
def POp.inputDim (o : POp K) : Option Nat := Op.inputDim ⟨o.kind, o.first⟩

/-- `op.parameter_dimension`. -/
def POp.paramDim : POp K → Option Nat
  | .np _ => none
  | .aff a => a.p
  | .itp t => t.p

/-- `oputils.is_parametric(op)`. -/
def POp.isParam : POp K → Bool
  | .np _ => false
  | _ => true

/-- `op._clear()`. -/
def POp.clear : POp K → POp K
  | .np o => .np o.clear
  | .aff a => .aff a.clear
  | .itp t => .itp t.clear

/-- `op.parameter_dimension = p` for an operator without one: _base.py:1266-1276. -/
def POp.setParamDim (o : POp K) (p : Nat) : Except Err (POp K) :=
  match o with
  | .np o => .ok (.np o)
  | .aff a => match Opinf.setParamDim a.p p with
    | .error e => .error e
    | .ok q => .ok (.aff { a with p := q })
  | .itp t => match Opinf.setParamDim t.p p with
    | .error e => .error e
    | .ok q => .ok (.itp { t with p := q })

/-- `op.evaluate(parameter) if is_parametric(op) else op`: _parametric.py:408-413; an affine operator
may learn its parameter dimension. -/
def POp.evaluate [Semiring K] (lib : ItpLib K) (o : POp K) (mu : Par K) : POp K × Except Err (Op K) :=
  match o with
  | .np o => (.np o, .ok o)
  | .aff a => (.aff (a.evaluate mu).1, (a.evaluate mu).2)
  | .itp t => (.itp t, t.evaluate lib mu)

/-- `op.apply(states, inputs)` or `op.apply(parameter, states, inputs)`: _parametric.py:244-249. -/
def POp.apply [CommSemiring K] (lib : ItpLib K) (o : POp K) (mu : Par K) (s : Arg K)
    (u : Option (Arg K)) : Except Err (Arg K) :=
  match o with
  | .np o => o.apply s u
  | .aff a => (a.apply mu s u).2
  | .itp t => t.apply lib mu s u

/-- One operator and its membership in `_indices_of_operators_to_infer`. -/
structure PSlot (K : Type) where
  op : POp K
  infer : Bool

/-- The attributes of a parametric model; `s` is the number of training parameters of the last fit. -/
structure PModel (K S : Type) where
  slots : List (PSlot K)
  hasInputs : Bool
  r : Option Nat
  m : Option Nat
  intrusive : Bool
  solver : Option S
  p : Option Nat
  s : Option Nat

def PModel.ops (M : PModel K S) : List (POp K) := M.slots.map PSlot.op

/-- `_check_state_dimension_consistency`: _base.py:158-171. -/
def pStateDimCheck (ops : List (POp K)) : Except Err (Option Nat) :=
  consistentDim (ops.filterMap POp.stateDim)

/-- `_check_input_dimension_consistency`: _base.py:192-210. -/
def pInputDimCheck (ops : List (POp K)) : Except Err (Option Nat) :=
  if (ops.filter fun o => o.kind.hasInputs).isEmpty then .ok (some 0)
  else consistentDim ((ops.filter fun o => o.kind.hasInputs).filterMap POp.inputDim)

/-- The common parameter dimension of the operators after a check against the new one:
_parametric.py:133-155. -/
def commonParamDim (ops : List (POp K)) (newdim : Option Nat) : Except Err (Option Nat) :=
  match consistentDim (ops.filterMap POp.paramDim) with
  | .error e => .error e
  | .ok p => match newdim with
    | none => .ok p
    | some d => if p.getD d ≠ d then .error .dimensionality else .ok (some d)

/-- The loop that gives every operator without a parameter dimension the common one:
_parametric.py:157-163. -/
def fillParamDim (p : Nat) : List (PSlot K) → List (PSlot K) × Except Err Unit
  | [] => ([], .ok ())
  | s :: ss =>
    if s.op.isParam && s.op.paramDim.isNone then
      match s.op.setParamDim p with
      | .error e => (s :: ss, .error e)
      | .ok o => ({ s with op := o } :: (fillParamDim p ss).1, (fillParamDim p ss).2)
    else (s :: (fillParamDim p ss).1, (fillParamDim p ss).2)

/-- `_synchronize_parameter_dimensions(newdim)`: _parametric.py:128-165. -/
def PModel.sync (M : PModel K S) (newdim : Option Nat) : PModel K S × Except Err Unit :=
  match commonParamDim M.ops newdim with
  | .error e => (M, .error e)
  | .ok none => ({ M with p := none }, .ok ())
  | .ok (some p) => match fillParamDim p M.slots with
    | (slots, .error e) => ({ M with slots := slots }, .error e)
    | (slots, .ok ()) => ({ M with slots := slots, p := some p }, .ok ())

/-- `ParametricModel(operators, solver)`: _base.py:24-41, 72-111, 332-368; _parametric.py:94-121, for a
solver object. -/
def PModel.construct (ops : List (POp K)) (solver : S) : Except Err (PModel K S) :=
  if ops.length = 0 then .error .value
  else if ¬ ((ops.filter fun o => !o.isCal).map POp.kind).Nodup then .error .value
  else match pStateDimCheck ops with
    | .error e => .error e
    | .ok r => match pInputDimCheck ops with
      | .error e => .error e
      | .ok m => finish (PModel.sync ⟨ops.map fun o => ⟨o, !o.isCal⟩, ops.any fun o => o.kind.hasInputs, r, m,
          (ops.filter fun o => !o.isCal).isEmpty,
          if (ops.filter fun o => !o.isCal).isEmpty then none else some solver, none, none⟩ none)

/-- `model._clear()`: _base.py:113-120. -/
def PModel.clear (M : PModel K S) : PModel K S × Except Err Unit :=
  let M1 := { M with slots := M.slots.map fun s => if s.infer then { s with op := s.op.clear } else s }
  match pStateDimCheck M1.ops with
  | .error e => (M1, .error e)
  | .ok r => match pInputDimCheck M1.ops with
    | .error e => ({ M1 with r := r }, .error e)
    | .ok m => ({ M1 with r := r, m := m }, .ok ())

/-- The parameter dimension of the training parameters: _parametric.py:175-184; `np.shape` raises
`ValueError` for values of different shapes. -/
def paramsDim (ps : List (Par K)) : Except Err Nat :=
  match ps with
  | [] => .ok 1
  | mu :: _ => if ps.any fun x => x.shape ≠ mu.shape then .error .value else .ok mu.dim

/-- `state_dimension` setter: _base.py:178-190. -/
def PModel.setStateDim (M : PModel K S) (r : Nat) : PModel K S × Except Err Unit :=
  if M.ops.any (fun o => o.isCal && o.stateDim != some r) then (M, .error .attribute)
  else ({ M with r := some r }, .ok ())

/-- `input_dimension` setter: _base.py:217-236. -/
def PModel.setInputDim (M : PModel K S) (m : Nat) : PModel K S × Except Err Unit :=
  if !M.hasInputs && m != 0 then (M, .error .attribute)
  else if M.ops.any (fun o => o.kind.hasInputs && o.isCal && o.inputDim != some m) then
    (M, .error .attribute)
  else ({ M with m := some m }, .ok ())

/-- The state dimension is taken from the first data set if unknown: _parametric.py:204-206. -/
def PModel.learnStateDim (M : PModel K S) (states : List (Nat × List (List K))) :
    PModel K S × Except Err Unit :=
  match M.r with
  | some _ => (M, .ok ())
  | none => match states with
    | [] => (M, .error .index)
    | Q :: _ => M.setStateDim Q.1

/-- The input dimension is taken from the first data set if unknown or zero: _parametric.py:229-230. -/
def PModel.learnInputDim (M : PModel K S) (inputs : List (Nat × List (List K))) :
    PModel K S × Except Err Unit :=
  if M.m.getD 0 = 0 then match inputs with
    | [] => (M, .error .index)
    | U :: _ => M.setInputDim U.1
  else (M, .ok ())

/-- `_check_valid_dimension0/1/2` for states and left-hand sides: _parametric.py:186-222. -/
def checkSets (n : Nat) (r : Option Nat) (states lhs : List (Nat × List (List K))) : Except Err Unit :=
  if states.length ≠ n then .error .dimensionality
  else if states.any fun Q => some Q.1 ≠ r then .error .dimensionality
  else if lhs.length ≠ n then .error .dimensionality
  else if lhs.any fun L => some L.1 ≠ r then .error .dimensionality
  else if (zip states lhs).any fun x => x.2.2.length ≠ x.1.2.length then .error .dimensionality
  else .ok ()

/-- The checks of the inputs: _parametric.py:231-238. -/
def checkInputSets (n : Nat) (m : Option Nat) (states inputs : List (Nat × List (List K))) :
    Except Err Unit :=
  if inputs.length ≠ n then .error .dimensionality
  else if inputs.any fun U => some U.1 ≠ m then .error .dimensionality
  else if (zip states inputs).any fun x => x.2.2.length ≠ x.1.2.length then .error .dimensionality
  else .ok ()

/-- The data of one training parameter: value, states and inputs (arrays given by height and columns). -/
structure PSet (K : Type) where
  mu : Par K
  n : Nat
  states : List (List K)
  inputs : Option (Nat × List (List K))

/-- One known operator is subtracted from all left-hand sides: _parametric.py:243-249. -/
def subKnownAt [CommRing K] (lib : ItpLib K) (o : POp K) :
    List (PSet K) → List (List (List K)) → Except Err (List (List (List K)))
  | x :: xs, L :: Ls =>
    match o.apply lib x.mu (.mat x.n x.states) (x.inputs.map fun U => .mat U.1 U.2) with
    | .error e => .error e
    | .ok y => match subArr x.n L y with
      | .error e => .error e
      | .ok L' => match subKnownAt lib o xs Ls with
        | .error e => .error e
        | .ok Ls' => .ok (L' :: Ls')
  | _, _ => .ok []

/-- The loop over the known operators: _parametric.py:240-249. -/
def pSubKnown [CommRing K] (lib : ItpLib K) (data : List (PSet K)) :
    List (PSlot K) → List (List (List K)) → Except Err (List (List (List K)))
  | [], lhs => .ok lhs
  | s :: ss, lhs =>
    if s.infer then pSubKnown lib data ss lhs
    else match subKnownAt lib s.op data lhs with
      | .error e => .error e
      | .ok lhs' => pSubKnown lib data ss lhs'

/-- The inputs after processing: _parametric.py:224-240. -/
def PModel.processInputs (M : PModel K S) (n : Nat) (states : List (Nat × List (List K)))
    (inputs : Option (List (Arg K))) :
    PModel K S × Except Err (List (Option (Nat × List (List K)))) :=
  if M.hasInputs then
    match inputs with
    | none => (M, .error .value)
    | some inputs => match M.learnInputDim (inputs.map atleast2d) with
      | (M, .error e) => (M, .error e)
      | (M, .ok ()) => match checkInputSets n M.m states (inputs.map atleast2d) with
        | .error e => (M, .error e)
        | .ok () => (M, .ok ((inputs.map atleast2d).map some))
  else (M, .ok (replicate n none))

/-- The training data as one list. -/
def makeSets (ps : List (Par K)) (states : List (Nat × List (List K)))
    (inputs : List (Option (Nat × List (List K)))) : List (PSet K) :=
  zipWith (fun mu x => ⟨mu, x.1.1, x.1.2, x.2⟩) ps (zip states inputs)

/-- `_process_fit_arguments(parameters, states, lhs, inputs)`: _parametric.py:167-251. -/
def PModel.processFitArgs [CommRing K] (lib : ItpLib K) (M : PModel K S) (ps : List (Par K))
    (states lhs : List (Arg K)) (inputs : Option (List (Arg K))) :
    PModel K S × Except Err (List (PSet K) × List (List (List K))) :=
  match M.clear with
  | (M, .error e) => (M, .error e)
  | (M, .ok ()) => match paramsDim ps with
    | .error e => (M, .error e)
    | .ok p => match M.sync (some p) with
      | (M, .error e) => (M, .error e)
      | (M, .ok ()) => match M.learnStateDim (states.map atleast2d) with
        | (M, .error e) => (M, .error e)
        | (M, .ok ()) => match checkSets ps.length M.r (states.map atleast2d) (lhs.map atleast2d) with
          | .error e => (M, .error e)
          | .ok () => match M.processInputs ps.length (states.map atleast2d) inputs with
            | (M, .error e) => (M, .error e)
            | (M, .ok U) =>
              match pSubKnown lib (makeSets ps (states.map atleast2d) U) M.slots
                  (lhs.map fun L => (atleast2d L).2) with
              | .error e => (M, .error e)
              | .ok Z => (M, .ok (makeSets ps (states.map atleast2d) U, Z))

/-- The data of a set in the form `datablock` takes. -/
def PSet.triple (x : PSet K) : Par K × List (List K) × Option (List (List K)) :=
  (x.mu, x.states, x.inputs.map Prod.snd)

/-- `op.datablock(..).T` for one operator to infer: _parametric.py:257-264 (`np.hstack([])` raises
`ValueError`). -/
def POp.block [CommSemiring K] (r m : Nat) (data : List (PSet K)) : POp K → Except Err (List (List K))
  | .np o => if data.isEmpty then .error .value
    else .ok (data.flatMap fun x => o.kind.block x.states (x.inputs.map Prod.snd))
  | .aff a => a.block (data.map PSet.triple)
  | .itp t => .ok (interpBlock t.kind r m (data.map PSet.triple))

/-- `op.operator_dimension(s, r, m)` or `op.operator_dimension(r, m)`: _parametric.py:292-301. -/
def POp.dim (s r m : Nat) : POp K → Nat
  | .np o => o.kind.dim r m
  | .aff a => a.dim r m
  | .itp t => interpDim t.kind s r m

/-- The operators to infer, in order. -/
def PModel.toInfer (M : PModel K S) : List (POp K) := (M.slots.filter PSlot.infer).map PSlot.op

/-- `_assemble_data_matrix`: _parametric.py:253-265; `np.hstack(blocks)`. The number of columns is read off
the first row. -/
def PModel.dataMatrix [CommSemiring K] (M : PModel K S) (data : List (PSet K)) : Except Err (Mat K) :=
  match M.toInfer.mapM (POp.block (M.r.getD 0) (M.m.getD 0) data) with
  | .error e => .error e
  | .ok bs =>
    let k := (data.map fun x => x.states.length).sum
    let rows := hstack k bs
    .ok ⟨k, match rows with
      | [] => (M.toInfer.map fun o => o.dim data.length (M.r.getD 0) (M.m.getD 0)).sum
      | row :: _ => row.length, rows⟩

/-- `set_training_parameters(parameters_)` on all interpolated operators: _parametric.py:277-279. -/
def setAllParams (ps : List (Par K)) : List (PSlot K) → List (PSlot K) × Except Err Unit
  | [] => ([], .ok ())
  | s :: ss => match s.op with
    | .itp t => match t.setParams ps with
      | .error e => (s :: ss, .error e)
      | .ok t' => ({ s with op := .itp t' } :: (setAllParams ps ss).1, (setAllParams ps ss).2)
    | _ => (s :: (setAllParams ps ss).1, (setAllParams ps ss).2)

/-- `_fit_solver(parameters, states, lhs, inputs)`: _parametric.py:267-285. -/
def PModel.fitSolver [CommRing K] (lib : ItpLib K) (I : SolverI K S) (M : PModel K S)
    (ps : List (Par K)) (states lhs : List (Arg K)) (inputs : Option (List (Arg K))) :
    PModel K S × Except Err Unit :=
  match M.processFitArgs lib ps states lhs inputs with
  | (M, .error e) => (M, .error e)
  | (M, .ok (data, Z)) => match setAllParams ps M.slots with
    | (slots, .error e) => ({ M with slots := slots }, .error e)
    | (slots, .ok ()) =>
      let M := { M with slots := slots }
      match M.dataMatrix data with
      | .error e => (M, .error e)
      | .ok D => match M.solver with
        | none => (M, .error .attribute)
        | some s => match I.fit s D Z.flatten with
          | (s', .error e) => ({ M with solver := some s' }, .error e)
          | (s', .ok ()) => ({ M with solver := some s', s := some ps.length }, .ok ())

/-- `op.set_entries(block)`, `op.set_entries(block, fromblock=True)`. -/
def POp.setBlock [AddMonoid K] [LinearOrder K] (lib : ItpLib K) (o : POp K) (B : Mat K) :
    POp K × Except Err Unit :=
  match o with
  | .np o => match o.kind.setEntries B with
    | .error e => (.np o, .error e)
    | .ok E => (.np { o with entries := some E }, .ok ())
  | .aff a => match a.setEntries (.block B) with
    | .error e => (.aff a, .error e)
    | .ok a' => (.aff a', .ok ())
  | .itp t => (.itp (t.setEntries lib (.block B)).1, (t.setEntries lib (.block B)).2)

/-- The loop of `_extract_operators(Ohat)`: _parametric.py:287-302. -/
def pExtract [AddMonoid K] [LinearOrder K] (lib : ItpLib K) (s r m : Nat) (Ohat : Mat K) :
    Nat → List (PSlot K) → List (PSlot K) × Except Err Unit
  | _, [] => ([], .ok ())
  | index, sl :: ss =>
    if sl.infer then
      let endex := index + sl.op.dim s r m
      match sl.op.setBlock lib (Ohat.colSlice index endex) with
      | (o, .error e) => ({ sl with op := o } :: ss, .error e)
      | (o, .ok ()) =>
        ({ sl with op := o } :: (pExtract lib s r m Ohat endex ss).1, (pExtract lib s r m Ohat endex ss).2)
    else (sl :: (pExtract lib s r m Ohat index ss).1, (pExtract lib s r m Ohat index ss).2)

/-- `refit()`: _parametric.py:304-324. -/
def PModel.refit [AddMonoid K] [LinearOrder K] (lib : ItpLib K) (I : SolverI K S) (M : PModel K S) :
    PModel K S × Except Err Unit :=
  if M.intrusive then (M, .ok ())
  else match M.solver with
    | none => (M, .error .attribute)
    | some s => match I.solve s with
      | .error e => (M, .error e)
      | .ok Ohat => match M.s with
        | none => (M, .error .attribute)
        | some n =>
          let out := pExtract lib n (M.r.getD 0) (M.m.getD 0) Ohat 0 M.slots
          ({ M with slots := out.1 }, out.2)

/-- `fit(parameters, states, lhs, inputs)`: _parametric.py:326-392. -/
def PModel.fit [CommRing K] [LinearOrder K] (lib : ItpLib K) (I : SolverI K S) (M : PModel K S)
    (ps : List (Par K)) (states lhs : List (Arg K)) (inputs : Option (List (Arg K))) :
    PModel K S × Except Err Unit :=
  if M.intrusive then (M, .ok ())
  else match M.fitSolver lib I ps states lhs inputs with
    | (M, .error e) => (M, .error e)
    | (M, .ok ()) => M.refit lib I

/-- The list comprehension of `evaluate`: _parametric.py:408-413. -/
def evalOps [Semiring K] (lib : ItpLib K) (mu : Par K) :
    List (PSlot K) → List (PSlot K) × Except Err (List (Op K))
  | [] => ([], .ok [])
  | s :: ss => match s.op.evaluate lib mu with
    | (o, .error e) => ({ s with op := o } :: ss, .error e)
    | (o, .ok op) => match evalOps lib mu ss with
      | (ss', .error e) => ({ s with op := o } :: ss', .error e)
      | (ss', .ok ops) => ({ s with op := o } :: ss', .ok (op :: ops))

/-- The constructor of the `_Frozen*Model` classes: _base.py:24-41 with the disabled solver setter
_nonparametric.py:1085-1091. -/
def frozen (S : Type) (ops : List (Op K)) : Except Err (Model K S) :=
  match (Model.blank K S).setOperators (ops.map OpArg.op) with
  | (_, .error e) => .error e
  | (N, .ok ()) => .ok N

/-- `evaluate(parameter)`: _parametric.py:395-413. -/
def PModel.evaluate [Semiring K] (lib : ItpLib K) (M : PModel K S) (mu : Par K) :
    PModel K S × Except Err (Model K S) :=
  match evalOps lib mu M.slots with
  | (slots, .error e) => ({ M with slots := slots }, .error e)
  | (slots, .ok ops) => ({ M with slots := slots }, frozen S ops)

/-- `rhs(parameter, state, input_)`: _parametric.py:415-450. -/
def PModel.rhs [CommSemiring K] (lib : ItpLib K) (M : PModel K S) (mu : Par K) (q : List K)
    (u : Option (List K)) : PModel K S × Except Err (List K) :=
  ((M.evaluate lib mu).1, match (M.evaluate lib mu).2 with
    | .error e => .error e
    | .ok N => N.rhs q u)

/-- `jacobian(parameter, state, input_)`: _parametric.py:452-487. -/
def PModel.jacobian [Field K] (lib : ItpLib K) (M : PModel K S) (mu : Par K) (q u : List K) :
    PModel K S × Except Err (List (List K)) :=
  ((M.evaluate lib mu).1, match (M.evaluate lib mu).2 with
    | .error e => .error e
    | .ok N => N.jacobian q u)

/-- `predict(parameter, state0, niters, inputs)` of `ParametricDiscreteModel`: _parametric.py:489-506. -/
def PModel.predict [CommSemiring K] (lib : ItpLib K) (M : PModel K S) (mu : Par K) (q0 : List K)
    (niters : Int) (inputs : PredInput K) : PModel K S × Except Err (List (List K)) :=
  ((M.evaluate lib mu).1, match (M.evaluate lib mu).2 with
    | .error e => .error e
    | .ok N => N.predict q0 niters inputs)

/-- Whether an argument is a scalar. -/
def Arg.isScalar : Arg K → Bool
  | .scalar _ => true
  | _ => false

/-- `ParametricDiscreteModel.fit(parameters, states, nextstates, inputs)`: _parametric.py:508-590, for
two-dimensional states (given by height and columns). A scalar cannot be sliced (`TypeError`). -/
def PModel.fitDiscrete [CommRing K] [LinearOrder K] (lib : ItpLib K) (I : SolverI K S) (M : PModel K S)
    (ps : List (Par K)) (states : List (Nat × List (List K))) (nextstates : Option (List (Arg K)))
    (inputs : Option (List (Arg K))) : PModel K S × Except Err Unit :=
  let st := match nextstates with
    | some _ => states
    | none => states.map fun Q => (Q.1, pySlice 0 (some (-1)) Q.2)
  let nx := match nextstates with
    | some nx => nx
    | none => states.map fun Q => .mat Q.1 (pySlice 1 none Q.2)
  if inputs.any fun us => (us.take st.length).any Arg.isScalar then (M, .error .type)
  else M.fit lib I ps (st.map fun Q => .mat Q.1 Q.2) nx
    (inputs.map fun us => zipWith (fun U Q => U.takeCols Q.2.length) us st)

/-! ### Models whose operators are all interpolated -/

/-- The attributes of an `_InterpModel`: _parametric.py:1024-1029. -/
structure IModel (K S : Type) where
  base : PModel K S
  subs : Option (List (Model K S))
  tparams : List (Par K)

/-- The operators of an `_InterpModel`. -/
def POp.interp? : POp K → Option (Interp K)
  | .itp t => some t
  | _ => none

/-- The operators of the submodel for the `i`-th parameter: _parametric.py:1143-1150; `entries[i]` may
raise `IndexError`. -/
def subOp (i : Nat) (o : POp K) : Except Err (Op K) :=
  match o with
  | .itp t => match t.entries with
    | none => .ok ⟨t.kind, none⟩
    | some As => match As[i]? with
      | none => .error .index
      | some A => .ok ⟨t.kind, some A⟩
  | _ => .error .attribute

/-- One submodel with its data: _parametric.py:1142-1158. -/
def fitSub [CommRing K] (plain : S) (l2 : Int → S) (I : SolverI K S) (M : PModel K S) (s : S) (i : Nat)
    (x : PSet K) (L : List (List K)) : Except Err (Model K S) :=
  match M.ops.mapM (subOp i) with
  | .error e => .error e
  | .ok ops => match ops.mapM Op.copy with
    | .error e => .error e
    | .ok ops => match Model.construct plain l2 (ops.map OpArg.op) (.obj s) with
      | .error e => .error e
      | .ok N => finish (N.fitSolver I (.mat x.n x.states) (.mat x.n L)
          (x.inputs.map fun U => .mat U.1 U.2))

/-- The loop over the training parameters. -/
def fitSubs [CommRing K] (plain : S) (l2 : Int → S) (I : SolverI K S) (M : PModel K S) (s : S) :
    Nat → List (PSet K) → List (List (List K)) → Except Err (List (Model K S))
  | i, x :: xs, L :: Ls => match fitSub plain l2 I M s i x L with
    | .error e => .error e
    | .ok N => match fitSubs plain l2 I M s (i + 1) xs Ls with
      | .error e => .error e
      | .ok Ns => .ok (N :: Ns)
  | _, _, _ => .ok []

/-- `_InterpModel._fit_solver`: _parametric.py:1129-1162 (`solver.copy()` is an equal solver). -/
def IModel.fitSolver [CommRing K] (lib : ItpLib K) (plain : S) (l2 : Int → S) (I : SolverI K S)
    (M : IModel K S) (ps : List (Par K)) (states lhs : List (Arg K)) (inputs : Option (List (Arg K))) :
    IModel K S × Except Err Unit :=
  match M.base.processFitArgs lib ps states lhs inputs with
  | (B, .error e) => ({ M with base := B }, .error e)
  | (B, .ok (data, Z)) => match B.solver with
    | none => ({ M with base := B }, .error .attribute)
    | some s => match fitSubs plain l2 I B s 0 data Z with
      | .error e => ({ M with base := B }, .error e)
      | .ok Ns => ({ M with base := B, subs := some Ns, tparams := ps }, .ok ())

/-- `for submodel in self._submodels: submodel.refit()`: _parametric.py:1170-1172. -/
def refitSubs [AddMonoid K] (I : SolverI K S) : List (Model K S) → List (Model K S) × Except Err Unit
  | [] => ([], .ok ())
  | N :: Ns => match N.refit I with
    | (N, .error e) => (N :: Ns, .error e)
    | (N, .ok ()) => (N :: (refitSubs I Ns).1, (refitSubs I Ns).2)

/-- The entries of the `ell`-th operator of every submodel: _parametric.py:1178-1180. (Passing `None`
entries on raises.) -/
def subEntries (ell : Nat) (Ns : List (Model K S)) : Except Err (List (Mat K)) :=
  Ns.mapM fun N => match N.ops[ell]? with
    | none => .error .index
    | some o => match o.entries with
      | none => .error .type
      | some E => .ok E

/-- One operator in the second loop of `refit`: _parametric.py:1175-1180. -/
def reinterpolate [AddMonoid K] [LinearOrder K] (lib : ItpLib K) (ps : List (Par K))
    (Ns : List (Model K S)) (ell : Nat) (o : POp K) : POp K × Except Err Unit :=
  match o with
  | .itp t => match t.clear.setParams ps with
    | .error e => (.itp t.clear, .error e)
    | .ok t' => match subEntries ell Ns with
      | .error e => (.itp t', .error e)
      | .ok As => (.itp (t'.setEntries lib (.list As)).1, (t'.setEntries lib (.list As)).2)
  | o => (o, .error .attribute)

/-- The second loop of `refit`. -/
def reinterpolateAll [AddMonoid K] [LinearOrder K] (lib : ItpLib K) (ps : List (Par K))
    (Ns : List (Model K S)) : Nat → List (PSlot K) → List (PSlot K) × Except Err Unit
  | _, [] => ([], .ok ())
  | ell, s :: ss => match reinterpolate lib ps Ns ell s.op with
    | (o, .error e) => ({ s with op := o } :: ss, .error e)
    | (o, .ok ()) => ({ s with op := o } :: (reinterpolateAll lib ps Ns (ell + 1) ss).1,
        (reinterpolateAll lib ps Ns (ell + 1) ss).2)

/-- `_InterpModel.refit()`: _parametric.py:1164-1182. -/
def IModel.refit [AddMonoid K] [LinearOrder K] (lib : ItpLib K) (I : SolverI K S) (M : IModel K S) :
    IModel K S × Except Err Unit :=
  match M.subs with
  | none => (M, .error .runtime)
  | some Ns => match refitSubs I Ns with
    | (Ns, .error e) => ({ M with subs := some Ns }, .error e)
    | (Ns, .ok ()) =>
      let out := reinterpolateAll lib M.tparams Ns 0 M.base.slots
      ({ M with base := { M.base with slots := out.1 }, subs := some Ns }, out.2)

/-- `fit(parameters, states, lhs, inputs)` of an `_InterpModel`: _parametric.py:383-392. -/
def IModel.fit [CommRing K] [LinearOrder K] (lib : ItpLib K) (plain : S) (l2 : Int → S)
    (I : SolverI K S) (M : IModel K S) (ps : List (Par K)) (states lhs : List (Arg K))
    (inputs : Option (List (Arg K))) : IModel K S × Except Err Unit :=
  if M.base.intrusive then (M, .ok ())
  else match M.fitSolver lib plain l2 I ps states lhs inputs with
    | (M, .error e) => (M, .error e)
    | (M, .ok ()) => M.refit lib I

/-- `set_interpolator(InterpolatorClass)`: _parametric.py:1081-1100. -/
def setAllClasses [LinearOrder K] (lib : ItpLib K) (c : Option ItpClass) :
    List (PSlot K) → List (PSlot K) × Except Err Unit
  | [] => ([], .ok ())
  | s :: ss => match c, s.op with
    | some c, .itp t => match t.setInterpolator lib (some c) with
      | (t, .error e) => ({ s with op := .itp t } :: ss, .error e)
      | (t, .ok ()) => ({ s with op := .itp t } :: (setAllClasses lib (some c) ss).1,
          (setAllClasses lib (some c) ss).2)
    | _, _ => (s :: ss, .ok ())

/-- `InterpModel(operators, solver, InterpolatorClass)`: _parametric.py:1024-1029; other operators are
rejected (`TypeError`). -/
def IModel.construct [LinearOrder K] (lib : ItpLib K) (ops : List (POp K)) (solver : S)
    (c : Option ItpClass) : Except Err (IModel K S) :=
  if ops.length = 0 then .error .value
  else if ops.any fun o => o.interp?.isNone then .error .type
  else match PModel.construct ops solver with
    | .error e => .error e
    | .ok B => match setAllClasses lib c B.slots with
      | (_, .error e) => .error e
      | (slots, .ok ()) => .ok ⟨{ B with slots := slots }, none, []⟩

/-- The check of one model against the operator classes of the first: _parametric.py:1050-1064, first the
number and the classes of the operators (`ValueError`), then `_check_is_trained`. -/
def checkAligned (kinds : List OpKind) (N : Model K S) : Except Err Unit :=
  if N.ops.map Op.kind ≠ kinds then .error .value else N.checkTrained

/-- `_from_models(parameters, models, InterpolatorClass)`: _parametric.py:1031-1079. Whether an operator is
an instance of the class of the corresponding operator of the first model is taken as having the same
class. -/
def IModel.fromModels [AddMonoid K] [LinearOrder K] (lib : ItpLib K) (solver : S) (ps : List (Par K))
    (models : List (Model K S)) (c : Option ItpClass) : Except Err (IModel K S) :=
  match models with
  | [] => .error .index
  | M0 :: _ => match models.mapM (checkAligned (M0.ops.map Op.kind)) with
    | .error e => .error e
    | .ok _ => match (range M0.ops.length).mapM fun ell =>
        Interp.fromOperators lib ((M0.ops.map Op.kind).getD ell .const) ps
          (models.map fun N => N.ops.getD ell ⟨.const, none⟩) c with
      | .error e => .error e
      | .ok ts => IModel.construct lib (ts.map POp.itp) solver c

end Opinf
