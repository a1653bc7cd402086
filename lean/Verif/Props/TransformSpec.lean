import Verif.Model.Transform

/-!
# What transformers are expected to do

Contracts in terms of the public methods only; they are also used for user-defined transformers inside
pipelines and multi-variable transformers.
-/

namespace Opinf

open List

variable {K : Type}

/-- Number of columns (`none` for a single snapshot). -/
def Snap.cols : Snap K → Option Nat
  | .vec _ => none
  | .mat k _ => some k

/-- Every row of a matrix has the same number of entries. -/
def Snap.WF : Snap K → Prop
  | .vec _ => True
  | .mat k rows => ∀ row ∈ rows, row.length = k

/-- An array with `n` rows and `c` columns. -/
structure Snap.Shaped (Y : Snap K) (n : Nat) (c : Option Nat) : Prop where
  wf : Y.WF
  len : Y.len = n
  cols : Y.cols = c

/-- `Y + h D`. -/
def Snap.axpy [Field K] (h : K) : Snap K → Snap K → Snap K
  | .vec xs, .vec ds => .vec (zipWith (fun x d => x + h * d) xs ds)
  | .mat k rows, .mat _ ds => .mat k (zipWith (zipWith fun x d => x + h * d) rows ds)
  | Y, _ => Y

/-- A call on `Y` returns `Z`; with `inplace` the argument holds the result, otherwise it is untouched. -/
def yields (inplace : Bool) (Y Z : Snap K) : Buf K := (if inplace then Z else Y, .ok Z)

/-- The positions selected by `locs` among `n`. -/
def locate (n : Nat) (l : Locs) : Except Err (List Nat) := do
  let is ← match l with
    | .idx is => .ok is
    | .slice a b c => sliceIdx n a b c
  is.mapM (pyIndex n)

variable {S : Type}

/-- `transform` and `inverse_transform` are inverse to each other on arrays with `n` rows; other arrays
are rejected and left untouched. -/
structure TfI.Invertible (I : TfI K S) (s : S) (n : Nat) : Prop where
  dim : I.dim s = some n
  forth : ∀ Y c, Y.Shaped n c → ∃ Z, Z.Shaped n c ∧
    (∀ b, I.transform s b Y = yields b Y Z) ∧ ∀ b, I.inverse s b Z none = yields b Z Y
  back : ∀ Z c, Z.Shaped n c → ∃ Y, Y.Shaped n c ∧
    (∀ b, I.inverse s b Z none = yields b Z Y) ∧ ∀ b, I.transform s b Y = yields b Y Z
  reject : ∀ Y b, Y.len ≠ n → ∃ e, I.transform s b Y = (Y, .error e)
  rejectInv : ∀ Y b, Y.len ≠ n → ∃ e, I.inverse s b Y none = (Y, .error e)

/-- At selected locations `inverse_transform` gives the original entries at these locations. -/
def TfI.InvertibleAt (I : TfI K S) [Zero K] (s : S) (n : Nat) : Prop :=
  ∀ Y Z c l ix, Y.Shaped n c → Z.Shaped n c → locate n l = .ok ix →
    I.transform s false Y = yields false Y Z →
    ∀ b, I.inverse s b (Z.pick ix) (some l) = yields b (Z.pick ix) (Y.pick ix)

/-- `transform_ddts` is the derivative of `transform`. -/
def TfI.Differentiates (I : TfI K S) [Field K] (s : S) (n : Nat) : Prop :=
  ∀ Y D c h, Y.Shaped n c → D.Shaped n c → ∃ Z E, Z.Shaped n c ∧ E.Shaped n c ∧
    (∀ b, I.transform s b Y = yields b Y Z) ∧
    (∀ b, I.ddts s b D = yields b D E) ∧
    ∀ b, I.transform s b (Y.axpy h D) = yields b (Y.axpy h D) (Z.axpy h E)

/-- A `fit_transform` that succeeds is `fit` followed by `transform`, and `inplace` only decides where the
result is: whatever the flag, the same transformer and the same values come out. -/
def TfI.FitsThenTransforms (I : TfI K S) (s : S) : Prop :=
  ∀ Y n c b s' Y' Z, Y.Shaped n c → I.fitTransform s b Y = (s', Y', .ok Z) →
    Z.Shaped n c ∧ I.dim s' = some n ∧ I.fit s Y = (s', .ok ()) ∧
    (∀ b, I.fitTransform s b Y = (s', yields b Y Z)) ∧ ∀ b, I.transform s' b Y = yields b Y Z

end Opinf
