import Verif.Model.RomFit
import Verif.Model.ParamRom

/-!
# Predictions of nonparametric reduced-order models

Model of `ROM.predict` in /repo/src/opinf/roms/_nonparametric.py:326-348 for fully discrete models.
-/

namespace Opinf

open List

variable {K T B S : Type}

/-- `model.predict(state0, niters, inputs)` of a fully discrete model for an array:
/repo/src/opinf/models/mono/_nonparametric.py:759-826; a two-dimensional initial state raises `DimensionalityError`. -/
def Model.predictArr [CommRing K] (M : Model K S) (niters : Int) (inputs : PredInput K) (z : Snap K) : Except Err (Snap K) :=
  match z with
  | .vec z => (M.predict z niters inputs).map (columnsSnap z.length)
  | .mat _ _ => .error .dimensionality

/-- `ROM.predict(state0, niters, inputs)` with a fully discrete model: _nonparametric.py:326-348. -/
def FRom.predict [CommRing K] (R : FRom K T B S) (state0 : Snap K) (niters : Int) (inputs : PredInput K) :
    Except Err (Snap K) :=
  R.rom.predict (R.model.predictArr niters inputs) state0

end Opinf
