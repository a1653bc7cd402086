import Verif.Model.ParamModel

/-!
# The use of one parametric model object

The calls that use a parametric model without retraining it
(`/repo/src/opinf/models/mono/_parametric.py:395-506`), one after the other, whether they raise or not.
-/

namespace Opinf

open List

variable {K S : Type}

/-- One use of a parametric model: `evaluate` (_parametric.py:395-413), `rhs` (415-450), `jacobian`
(452-487) or `predict` of the discrete model (489-506). -/
inductive PUse (K : Type)
  | evaluate (mu : Par K)
  | rhs (mu : Par K) (q : List K) (u : Option (List K))
  | jacobian (mu : Par K) (q u : List K)
  | predict (mu : Par K) (q0 : List K) (niters : Int) (inputs : PredInput K)

/-- The parameter of the call. -/
def PUse.param : PUse K → Par K
  | .evaluate mu => mu
  | .rhs mu _ _ => mu
  | .jacobian mu _ _ => mu
  | .predict mu _ _ _ => mu

/-- The object after the call, also if the call raises: _parametric.py:395-506. -/
def PUse.run [Field K] (lib : ItpLib K) (M : PModel K S) : PUse K → PModel K S
  | .evaluate mu => (M.evaluate lib mu).1
  | .rhs mu q u => (M.rhs lib mu q u).1
  | .jacobian mu q u => (M.jacobian lib mu q u).1
  | .predict mu q0 niters inputs => (M.predict lib mu q0 niters inputs).1

/-- Several calls; those that raise are caught by the caller and the next call follows. -/
def runUses [Field K] (lib : ItpLib K) : PModel K S → List (PUse K) → PModel K S
  | M, [] => M
  | M, c :: cs => runUses lib (c.run lib M) cs

end Opinf
