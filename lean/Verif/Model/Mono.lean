import Verif.Model.Operators
import Verif.Model.FiniteDiff

/-!
# Monolithic nonparametric models: construction, fitting, evaluation, prediction

Models `/repo/src/opinf/models/mono/_base.py` and `/repo/src/opinf/models/mono/_nonparametric.py`.

Simplifications, used throughout this file:
* the two index lists `_indices_of_operators_to_infer` and `_indices_of_known_operators` are always
  complementary increasing lists; they are stored as one flag `infer` per operator (`Slot`);
* a method that changes the model and may raise returns the changed model together with
  `Except Err _`, so the state left behind by a raised exception is visible;
* warnings are not modelled; arrays of snapshots are lists of columns.
-/

namespace Opinf

open List

variable {K : Type}

/-! ### Operators inside a model -/

/-- An operator object: its class and its (stored) entries. -/
structure Op (K : Type) where
  kind : OpKind
  entries : Option (Mat K)
  deriving DecidableEq, Repr

/-- `oputils.has_inputs(op)`: operators/_utils.py / operators/_base.py:41-46; the classes deriving
from `InputMixin` are `InputOperator` and `StateInputOperator`. -/
def OpKind.hasInputs : OpKind → Bool
  | .inp | .stateInp => true
  | _ => false

/-- `op.state_dimension`: operators/_base.py:601-604. -/
def Op.stateDim (o : Op K) : Option Nat := o.entries.map Mat.nrows

/-- `op.input_dimension`: _nonparametric.py (`InputOperator`: `entries.shape[1]`;
`StateInputOperator`: `entries.shape[1] // entries.shape[0]`). -/
def Op.inputDim (o : Op K) : Option Nat :=
  o.entries.bind fun E => match o.kind with
    | .inp => some E.ncols
    | .stateInp => some (E.ncols / E.nrows)
    | _ => none

/-- `op.apply(state, input_)`, decorated by `requires("entries")`; `none` as the input is Python's
`None`, which the classes without inputs ignore. With inputs, `entries[..] * None` raises
`TypeError` (one column) and `entries @ None` raises `ValueError`; `np.kron(None, state)` raises
`TypeError`. -/
def Op.apply [CommSemiring K] (o : Op K) (s : Arg K) (u : Option (Arg K)) : Except Err (Arg K) :=
  match o.entries with
  | none => .error .attribute
  | some E => match u with
    | some u => o.kind.apply E s u
    | none => match o.kind with
      | .inp => if E.ncols = 1 then .error .type else .error .value
      | .stateInp => .error .type
      | k => k.apply E s (.scalar 0)

/-- `op._clear()`: operators/_base.py:551-553. -/
def Op.clear (o : Op K) : Op K := { o with entries := none }

/-- `op.copy()`: operators/_base.py:780-783 (entries pass through `set_entries` again). -/
def Op.copy [AddMonoid K] (o : Op K) : Except Err (Op K) :=
  match o.entries with
  | none => .ok ⟨o.kind, none⟩
  | some E => do return ⟨o.kind, some (← o.kind.setEntries E)⟩

/-- One operator of a model together with its membership in `_indices_of_operators_to_infer`. -/
structure Slot (K : Type) where
  op : Op K
  infer : Bool
  deriving DecidableEq, Repr

/-- The attributes of a model object (`_base.py:35-38, 105-111`). `S` is the solver type. -/
structure Model (K S : Type) where
  slots : List (Slot K)
  hasInputs : Bool
  r : Option Nat
  m : Option Nat
  intrusive : Bool
  solver : Option S
  deriving DecidableEq

def Model.ops {S : Type} (M : Model K S) : List (Op K) := M.slots.map Slot.op

/-! ### Construction -/

/-- What may be passed in the `operators` list. -/
inductive OpArg (K : Type)
  | str (s : String)
  | op (o : Op K)
  | other

/-- `_operator_abbreviations`: _nonparametric.py:38-45. -/
def abbreviation : String → Option OpKind
  | "c" => some .const
  | "A" => some .lin
  | "H" => some (.kron .quad)
  | "G" => some (.kron .cubic)
  | "B" => some .inp
  | "N" => some .stateInp
  | _ => none

/-- _base.py:83-94, one element of the list. -/
def OpArg.resolve : OpArg K → Except Err (Op K)
  | .str s => match abbreviation s with
    | some k => .ok ⟨k, none⟩
    | none => .error .type
  | .op o => .ok o
  | .other => .error .type

/-- The loop _base.py:81-100; the first component is `self._has_inputs`. -/
def scanOps : Bool → List (OpArg K) → Bool × Except Err (List (Op K))
  | h, [] => (h, .ok [])
  | h, a :: as => match a.resolve with
    | .error e => (h, .error e)
    | .ok o => match scanOps (h || o.kind.hasInputs) as with
      | (h', .error e) => (h', .error e)
      | (h', .ok os) => (h', .ok (o :: os))

/-- `len(rs) > 1` for the set of dimensions, then `rs.pop()`: _base.py:165-175, 204-217. -/
def consistentDim : List Nat → Except Err (Option Nat)
  | [] => .ok none
  | d :: ds => if ds.all (· == d) then .ok (some d) else .error .dimensionality

/-- `_check_state_dimension_consistency`: _base.py:159-175. -/
def stateDimCheck (ops : List (Op K)) : Except Err (Option Nat) :=
  consistentDim (ops.filterMap Op.stateDim)

/-- `_check_input_dimension_consistency`: _base.py:198-217. -/
def inputDimCheck (ops : List (Op K)) : Except Err (Option Nat) :=
  let inputops := ops.filter (·.kind.hasInputs)
  if inputops.isEmpty then .ok (some 0)
  else consistentDim (inputops.filterMap Op.inputDim)

/-- `_check_operator_types_unique`: _nonparametric.py:55-79, for the dedicated classes. -/
def typesUnique (ops : List (Op K)) : Except Err Unit :=
  if (ops.map Op.kind).Nodup then .ok () else .error .value

/-- `model.operators = ops`: _base.py:72-111. -/
def Model.setOperators {S : Type} (M : Model K S) (args : List (OpArg K)) :
    Model K S × Except Err Unit :=
  if args.length = 0 then (M, .error .value)
  else match scanOps false args with
    | (h, .error e) => ({ M with hasInputs := h }, .error e)
    | (h, .ok ops) =>
      let M1 := { M with hasInputs := h }
      match typesUnique (ops.filter (·.entries.isNone)) with
      | .error e => (M1, .error e)
      | .ok () => match stateDimCheck ops with
        | .error e => (M1, .error e)
        | .ok r => match inputDimCheck ops with
          | .error e => ({ M1 with r := r }, .error e)
          | .ok m => ({ M1 with
              slots := ops.map fun o => ⟨o, o.entries.isNone⟩
              r := r, m := m
              intrusive := (ops.filter (·.entries.isNone)).isEmpty }, .ok ())

/-- The solver argument: `None`, a number or a solver object. -/
inductive SolverArg (S : Type)
  | none
  | scalar (x : Int)
  | obj (s : S)

/-- The `solver` setter: _base.py:332-368; `plain` stands for `PlainSolver()` and `l2 x` for
`L2Solver(x)`. (Classes instead of instances and objects without `fit`/`solve` are not modelled.) -/
def Model.setSolver {S : Type} (plain : S) (l2 : Int → S) (M : Model K S) (a : SolverArg S) :
    Model K S × Except Err Unit :=
  if M.intrusive then ({ M with solver := none }, .ok ())
  else match a with
    | .none => ({ M with solver := some plain }, .ok ())
    | .scalar x => if x = 0 then ({ M with solver := some plain }, .ok ())
        else if x > 0 then ({ M with solver := some (l2 x) }, .ok ())
        else (M, .error .value)
    | .obj s => ({ M with solver := some s }, .ok ())

/-- The attributes before `operators` is set: _base.py:35-38. -/
def Model.blank (K S : Type) : Model K S := ⟨[], false, none, none, false, none⟩

/-- `Model(operators, solver)`: _base.py:24-41. -/
def Model.construct {S : Type} (plain : S) (l2 : Int → S) (args : List (OpArg K))
    (a : SolverArg S) : Except Err (Model K S) :=
  match (Model.blank K S).setOperators args with
  | (_, .error e) => .error e
  | (M, .ok ()) => match M.setSolver plain l2 a with
    | (_, .error e) => .error e
    | (M, .ok ()) => .ok M

/-! ### Fitting -/

/-- A solver class, seen from the model: `fit(D, lhs)` stores the data (`D` by rows, `lhs` by
columns) and `solve()` returns the `r × d` operator matrix. -/
structure SolverI (K S : Type) where
  fit : S → Mat K → List (List K) → S × Except Err Unit
  solve : S → Except Err (Mat K)

/-- `model._clear()`: _base.py:113-120. -/
def Model.clear {S : Type} (M : Model K S) : Model K S × Except Err Unit :=
  let slots := M.slots.map fun s => if s.infer then { s with op := s.op.clear } else s
  let M1 := { M with slots := slots }
  match stateDimCheck M1.ops with
  | .error e => (M1, .error e)
  | .ok r => match inputDimCheck M1.ops with
    | .error e => ({ M1 with r := r }, .error e)
    | .ok m => ({ M1 with r := r, m := m }, .ok ())

/-- `_check_inputargs`: _base.py:371-381. -/
def Model.checkInputArgs {S α : Type} (M : Model K S) (u : Option α) : Except Err Unit :=
  if M.hasInputs ∧ u.isNone then .error .value else .ok ()

/-- `input_dimension` setter: _base.py:224-243. -/
def Model.setInputDim {S : Type} (M : Model K S) (m : Nat) : Model K S × Except Err Unit :=
  if !M.hasInputs && m != 0 then (M, .error .attribute)
  else if M.ops.any (fun o => o.kind.hasInputs && o.entries.isSome && o.inputDim != some m) then
    (M, .error .attribute)
  else ({ M with m := some m }, .ok ())

/-- `state_dimension` setter: _base.py:182-195. -/
def Model.setStateDim {S : Type} (M : Model K S) (r : Nat) : Model K S × Except Err Unit :=
  if M.ops.any (fun o => o.entries.isSome && o.stateDim != some r) then (M, .error .attribute)
  else ({ M with r := some r }, .ok ())

/-- `lhs - op.apply(states, inputs)` for arrays of the same shape; the code can only reach
other shapes when numpy would raise or broadcast, which `fit_known_shapes` (Props) excludes. -/
def subArr [Sub K] (r : Nat) (lhs : List (List K)) : Arg K → Except Err (List (List K))
  | .mat n cols => if n = r ∧ cols.length = lhs.length then .ok (zipWith vsub lhs cols)
      else .error .value
  | _ => .error .value

/-- The loop _nonparametric.py:177-178 over the known operators. -/
def subKnown [CommRing K] (r : Nat) (states : Arg K) (inputs : Option (Arg K)) :
    List (Slot K) → List (List K) → Except Err (List (List K))
  | [], lhs => .ok lhs
  | s :: ss, lhs =>
    if s.infer then subKnown r states inputs ss lhs
    else do
      let y ← s.op.apply states inputs
      let lhs' ← subArr r lhs y
      subKnown r states inputs ss lhs'

/-- `_process_fit_arguments(states, lhs, inputs)`: _nonparametric.py:130-180. Returns the columns of
the states, of the modified left-hand side and of the inputs. -/
def Model.processFitArgs {S : Type} [CommRing K] (M : Model K S) (states lhs : Arg K)
    (inputs : Option (Arg K)) :
    Model K S × Except Err (List (List K) × List (List K) × Option (Nat × List (List K))) :=
  match M.clear with
  | (M, .error e) => (M, .error e)
  | (M, .ok ()) =>
    let Q := atleast2d states
    match (if M.r.isNone then M.setStateDim Q.1 else (M, .ok ())) with
    | (M, .error e) => (M, .error e)
    | (M, .ok ()) =>
      if some Q.1 ≠ M.r then (M, .error .dimensionality)
      else
        let L := atleast2d lhs
        if some L.1 ≠ M.r then (M, .error .dimensionality)
        else if L.2.length ≠ Q.2.length then (M, .error .dimensionality)
        else match M.checkInputArgs inputs with
          | .error e => (M, .error e)
          | .ok () =>
            if M.hasInputs then
              match inputs with
              | none => (M, .error .value)
              | some inputs =>
                let U := atleast2d inputs
                match (if M.m.getD 0 = 0 then M.setInputDim U.1 else (M, .ok ())) with
                | (M, .error e) => (M, .error e)
                | (M, .ok ()) =>
                  if some U.1 ≠ M.m then (M, .error .dimensionality)
                  else if U.2.length ≠ Q.2.length then (M, .error .dimensionality)
                  else match subKnown Q.1 (.mat Q.1 Q.2) (some (.mat U.1 U.2)) M.slots L.2 with
                    | .error e => (M, .error e)
                    | .ok Z => (M, .ok (Q.2, Z, some U))
            else match subKnown Q.1 (.mat Q.1 Q.2) inputs M.slots L.2 with
              | .error e => (M, .error e)
              | .ok Z => (M, .ok (Q.2, Z, none))

/-- `op.datablock(states, inputs).T` for two-dimensional states (list of rows, one per snapshot);
classes without inputs ignore `inputs`. -/
def OpKind.block [CommSemiring K] (o : OpKind) (states : List (List K))
    (inputs : Option (List (List K))) : List (List K) :=
  if o.hasInputs then o.datablock states (inputs.getD [])
  else states.map fun q => o.dataCol q []

/-- `np.hstack` of matrices with `k` rows, given by rows. -/
def hstack (k : Nat) (blocks : List (List (List K))) : List (List K) :=
  blocks.foldr (zipWith (· ++ ·)) (replicate k [])

/-- The classes of the operators to infer, in order. -/
def Model.toInfer {S : Type} (M : Model K S) : List OpKind :=
  (M.slots.filter Slot.infer).map fun s => s.op.kind

/-- `_assemble_data_matrix(states, inputs)`: _nonparametric.py:182-219. -/
def Model.dataMatrix {S : Type} [CommSemiring K] (M : Model K S) (states : List (List K))
    (inputs : Option (Nat × List (List K))) : Mat K :=
  ⟨states.length, (M.toInfer.map fun o => o.dim (M.r.getD 0) (M.m.getD 0)).sum,
    hstack states.length (M.toInfer.map fun o => o.block states (inputs.map Prod.snd))⟩

/-- `Ohat[:, index:endex]`. -/
def Mat.colSlice (A : Mat K) (i j : Nat) : Mat K :=
  ⟨A.nrows, min j A.ncols - i, A.rows.map fun row => (row.drop i).take (j - i)⟩

/-- The loop _nonparametric.py:230-236; a raising `set_entries` leaves the earlier operators set. -/
def extractLoop [AddMonoid K] (r m : Nat) (Ohat : Mat K) :
    Nat → List (Slot K) → List (Slot K) × Except Err Unit
  | _, [] => ([], .ok ())
  | index, s :: ss =>
    if s.infer then
      let endex := index + s.op.kind.dim r m
      match s.op.kind.setEntries (Ohat.colSlice index endex) with
      | .error e => (s :: ss, .error e)
      | .ok E =>
        let rest := extractLoop r m Ohat endex ss
        ({ s with op := { s.op with entries := some E } } :: rest.1, rest.2)
    else
      let rest := extractLoop r m Ohat index ss
      (s :: rest.1, rest.2)

/-- `_extract_operators(Ohat)`: _nonparametric.py:221-236. -/
def Model.extract {S : Type} [AddMonoid K] (M : Model K S) (Ohat : Mat K) :
    Model K S × Except Err Unit :=
  let out := extractLoop (M.r.getD 0) (M.m.getD 0) Ohat 0 M.slots
  ({ M with slots := out.1 }, out.2)

/-- `_fit_solver(states, lhs, inputs)`: _nonparametric.py:238-247. -/
def Model.fitSolver {S : Type} [CommRing K] (I : SolverI K S) (M : Model K S) (states lhs : Arg K)
    (inputs : Option (Arg K)) : Model K S × Except Err Unit :=
  match M.processFitArgs states lhs inputs with
  | (M, .error e) => (M, .error e)
  | (M, .ok (Q, Z, U)) => match M.solver with
    | none => (M, .error .attribute)
    | some s =>
      let out := I.fit s (M.dataMatrix Q U) Z
      ({ M with solver := some out.1 }, out.2)

/-- `refit()`: _nonparametric.py:249-270. -/
def Model.refit {S : Type} [AddMonoid K] (I : SolverI K S) (M : Model K S) :
    Model K S × Except Err Unit :=
  if M.intrusive then (M, .ok ())
  else match M.solver with
    | none => (M, .error .attribute)
    | some s => match I.solve s with
      | .error e => (M, .error e)
      | .ok Ohat => M.extract Ohat

/-- `fit(states, lhs, inputs)`: _nonparametric.py:272-333. -/
def Model.fit {S : Type} [CommRing K] (I : SolverI K S) (M : Model K S) (states lhs : Arg K)
    (inputs : Option (Arg K)) : Model K S × Except Err Unit :=
  if M.intrusive then (M, .ok ())
  else match M.fitSolver I states lhs inputs with
    | (M, .error e) => (M, .error e)
    | (M, .ok ()) => M.refit I

/-- Columns `[:, :k]` of an array along its last axis. -/
def Arg.takeCols (k : Nat) : Arg K → Arg K
  | .scalar x => .scalar x
  | .vec xs => .vec (xs.take k)
  | .mat n cols => .mat n (cols.take k)

/-- `DiscreteModel.fit(states, nextstates, inputs)`: _nonparametric.py:660-713, for a
two-dimensional `states` with `n` rows. A scalar cannot be sliced (`TypeError`). -/
def Model.fitDiscrete {S : Type} [CommRing K] (I : SolverI K S) (M : Model K S) (n : Nat)
    (states : List (List K)) (nextstates : Option (Arg K)) (inputs : Option (Arg K)) :
    Model K S × Except Err Unit :=
  let p : List (List K) × Arg K := match nextstates with
    | some nx => (states, nx)
    | none => (pySlice 0 (some (-1)) states, .mat n (pySlice 1 none states))
  match inputs with
  | some (.scalar _) => (M, .error .type)
  | inputs => M.fit I (.mat n p.1) p.2 (inputs.map (Arg.takeCols p.1.length))

/-! ### Reading the learned operators, evaluation -/

/-- `_check_is_trained()`: _base.py:383-390. -/
def Model.checkTrained {S : Type} (M : Model K S) : Except Err Unit :=
  if M.r.isNone then .error .attribute
  else if M.hasInputs && M.m.isNone then .error .attribute
  else if M.ops.any (·.entries.isNone) then .error .attribute
  else .ok ()

/-- `operator_matrix`: _nonparametric.py:113-127. `np.column_stack([])` raises `ValueError`. -/
def Model.operatorMatrix {S : Type} (M : Model K S) : Except Err (Mat K) := do
  M.checkTrained
  let Es := (M.slots.filter Slot.infer).filterMap fun s => s.op.entries
  match Es with
  | [] => throw .value
  | E :: _ => return ⟨E.nrows, (Es.map Mat.ncols).sum, hstack E.nrows (Es.map Mat.rows)⟩

/-- `out += y` for a one-dimensional `out`: same length, or a broadcastable `y`. -/
def addInto [Add K] (out : List K) : Arg K → Except Err (List K)
  | .scalar y => .ok (out.map (· + y))
  | .vec [y] => .ok (out.map (· + y))
  | .vec ys => if ys.length = out.length then .ok (vadd out ys) else .error .value
  | .mat .. => .error .value

/-- `rhs(state, input_)`: _nonparametric.py:336-362, for a state vector (`np.zeros_like` without the
integer-dtype case). -/
def Model.rhs {S : Type} [CommSemiring K] (M : Model K S) (q : List K) (u : Option (List K)) :
    Except Err (List K) :=
  M.ops.foldlM (fun out op => do addInto out (← op.apply (.vec q) (u.map .vec)))
    (replicate q.length 0)

/-- `jacobian(state, input_)`: _nonparametric.py:364-391, for a state vector. -/
def Model.jacobian {S : Type} [Field K] (M : Model K S) (q u : List K) :
    Except Err (List (List K)) :=
  M.ops.foldlM (fun out op => match op.entries with
      | none => .error .attribute
      | some E => do
        let J ← op.kind.jacobian E q u
        return zipWith vadd out J)
    (replicate (M.r.getD 0) (replicate (M.r.getD 0) 0))

/-! ### Discrete prediction -/

/-- The `inputs` argument of `DiscreteModel.predict`. -/
inductive PredInput (K : Type)
  | none
  | callable
  | arr (a : Arg K)

def PredInput.isNone : PredInput K → Bool
  | .none => true
  | _ => false

/-- The loop _nonparametric.py:816-818 / 820-821: `states[:, j+1] = rhs(states[:, j], U[:, j])` for
`j` in `range(niters - 1)`. -/
def iterate (f : List K → Nat → Except Err (List K)) (q0 : List K) (n : Nat) :
    Except Err (List (List K)) :=
  (range (n - 1)).foldlM (fun states j => do return states ++ [← f (states.getD j []) j]) [q0]

/-- `DiscreteModel.predict(state0, niters, inputs)`: _nonparametric.py:759-826, for a
one-dimensional `state0` and an integer `niters`. -/
def Model.predict {S : Type} [CommSemiring K] (M : Model K S) (q0 : List K) (niters : Int)
    (inputs : PredInput K) : Except Err (List (List K)) := do
  M.checkTrained
  if some q0.length ≠ M.r then throw .dimensionality
  if M.hasInputs ∧ inputs.isNone then throw .value
  if niters < 1 then throw .value
  if M.hasInputs then
    match inputs with
    | .none => throw .value
    | .callable => throw .type
    | .arr a =>
      let U := atleast2d a
      if some U.1 ≠ M.m ∨ U.2.length < niters.toNat - 1 then throw .value
      iterate (fun q j => M.rhs q (some (U.2.getD j []))) q0 niters.toNat
  else iterate (fun q _ => M.rhs q none) q0 niters.toNat

/-- `DiscreteModel.stack_trajectories(statelist, inputlist)`: _nonparametric.py:646-658; trajectories
are lists of columns. -/
def stackTrajectories {α β : Type*} (statelist : List (List α)) (inputlist : Option (List (List β))) :
    List α × List α × Option (List β) :=
  let states := (statelist.map fun Q => pySlice 0 (some (-1)) Q).flatten
  let nextstates := (statelist.map fun Q => pySlice 1 none Q).flatten
  (states, nextstates, inputlist.map fun us =>
    (zipWith (fun S U => pySlice 0 (some ((S.length : Int) - 1)) U) statelist us).flatten)

/-! ### Equality, copying, persistence, projection -/

/-- `operator == operator`: operators/_base.py:607-621 for operators of the listed classes. -/
def Op.beq [DecidableEq K] (a b : Op K) : Bool :=
  decide (a.kind = b.kind) && (match a.entries, b.entries with
    | none, none => true
    | some E, some F => decide (E.nrows = F.nrows ∧ E.ncols = F.ncols) && decide (E.rows = F.rows)
    | _, _ => false)

/-- The inner loop _base.py:307-311: index of the first unmarked equal operator. -/
def findUnmarked {α : Type*} (eq : α → α → Bool) (a : α) (marked : List Nat) :
    Nat → List α → Option Nat
  | _, [] => none
  | i, b :: bs => if eq a b && !marked.contains i then some i else findUnmarked eq a marked (i + 1) bs

/-- The outer loop _base.py:304-314. -/
def matchOps {α : Type*} (eq : α → α → Bool) : List α → List α → List Nat → Bool
  | [], _, _ => true
  | a :: as, bs, marked => match findUnmarked eq a marked 0 bs with
    | none => false
    | some i => matchOps eq as bs (i :: marked)

/-- `model == other` for models of the same class: _base.py:294-314. -/
def Model.beq {S : Type} [DecidableEq K] (M N : Model K S) : Bool :=
  if M.ops.length ≠ N.ops.length then false
  else if M.r ≠ N.r then false
  else if M.m ≠ N.m then false
  else matchOps Op.beq M.ops N.ops []

/-- `model.copy()`: _base.py:317-320 (`solver.copy()` gives an equal solver). -/
def Model.copy {S : Type} [AddMonoid K] (plain : S) (l2 : Int → S) (M : Model K S) :
    Except Err (Model K S) := do
  let ops ← M.ops.mapM Op.copy
  Model.construct plain l2 (ops.map OpArg.op) (match M.solver with
    | some s => .obj s
    | none => .none)

/-- `model.save(f)` followed by `Model.load(f)`: _nonparametric.py:399-472. Operators are written with
their entries and read through their constructors; the index lists are written and restored; the
solver is written but not read. -/
def Model.saveLoad {S : Type} [AddMonoid K] (plain : S) (l2 : Int → S) (M : Model K S) :
    Except Err (Model K S) := do
  let ops ← M.ops.mapM Op.copy
  let N ← Model.construct plain l2 (ops.map OpArg.op) (.none : SolverArg S)
  let N1 := { N with slots := zipWith (fun s t => { s with infer := t.infer }) N.slots M.slots }
  let N2 ← (if M.r.getD 0 = 0 then Except.ok N1 else match N1.setStateDim (M.r.getD 0) with
    | (_, .error e) => .error e
    | (N', .ok ()) => .ok N')
  if M.m.getD 0 ≠ 0 ∧ N2.hasInputs then
    match N2.setInputDim (M.m.getD 0) with
    | (_, .error e) => .error e
    | (N', .ok ()) => .ok N'
  else .ok N2

/-- `model.galerkin(Vr, Wr)`: _base.py:239-292 (the new model is built without a solver argument). -/
def Model.galerkin {S : Type} [Field K] [DecidableEq K]
    (solve : List (List K) → Mat K → Except Err (Mat K)) (plain : S) (l2 : Int → S) (M : Model K S)
    (rV r : Nat) (V W : List (List K)) : Except Err (Model K S) := do
  let ops ← M.ops.mapM fun o => match o.entries with
    | none => o.copy
    | some E => do return (⟨o.kind, some (← o.kind.galerkin solve E rV r V W)⟩ : Op K)
  Model.construct plain l2 (ops.map OpArg.op) .none

end Opinf
