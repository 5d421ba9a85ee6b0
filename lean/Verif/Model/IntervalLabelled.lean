import Verif.Model.IntervalNd
import Verif.Model.LabelledObject

/-!
# Bootstrap confidence intervals of labelled arrays

`/repo/src/cmomy/confidence_interval.py:204-256`, for `DataArray`s. `apply_ufunc` is modelled by its
contract, as in `Model/LabelledNd.lean`. Coordinates (`assign_coords`), attributes, data types, dask and
`Dataset` are not modelled.
-/

namespace Cmomy.Labelled

open Axes

variable {δ : Type} [DecidableEq δ] {K : Type} [Field K] [LinearOrder K] [FloorRing K]

/-- Contract of `np.moveaxis(a, 0, -1)`. -/
def firstToLast {α : Type} (a : Nd.Arr α) : Nd.Arr α where
  shape := a.shape.drop 1 ++ a.shape.take 1
  get i := a.get (Nd.insertAt 0 (i (a.shape.length - 1)) (Nd.dropAt (a.shape.length - 1) i))

/-- An optional input, prepared by `broadcast_compat_data`. -/
def compatOpt (x : Option (DataArray δ K)) (loop core : List δ) : Py (Option (Nd.Arr K)) :=
  match x with
  | none => .ok none
  | some x => (compatData x loop core).map some

/-- `confidence_interval.py:214-252`: `apply_ufunc` over the replicates and, where given, the estimates
and the leave-one-out estimates; `dim`, none and `rep` are their core dimensions. -/
def applyCI (N : NormalFns K) (boot : DataArray δ K) (hat jack : Option (DataArray δ K))
    (alphas : List K) (method : String) (dim rep ciDim : δ) : Py (DataArray δ (Option K)) :=
  let frames := boot.frame :: (hat.toList ++ jack.toList).map DataArray.frame
  (loopDims frames [] (dim :: (if jack.isSome then [rep] else []) ++ [ciDim])).bind fun loop =>
  (compatData boot loop [dim]).bind fun b =>
  (compatOpt hat loop []).bind fun h =>
  (compatOpt jack loop [rep]).bind fun j =>
  (Nd.bootCINd N b h j alphas method (-1)).bind fun out =>
  wrapResult frames [] (loop ++ [ciDim]) (firstToLast out)

/-- The renaming of the leave-one-out estimates, `confidence_interval.py:209-210`. -/
def renameOpt (x : Option (DataArray δ K)) (dim rep : δ) : Py (Option (DataArray δ K)) :=
  match x with
  | none => .ok none
  | some x => (x.rename dim rep).map some

/-- `confidence_interval.py:204-256`. `hat` and `jack` are `none` when they are not labelled. The method is
compared as it is written. `rep` is `"_rep_jack"`. -/
def bootstrapCIX (N : NormalFns K) (boot : DataArray δ K) (hat jack : Option (DataArray δ K))
    (alpha : AlphaArg K) (method : String) (axis : Option (Option AxisArg)) (dim : Option (Option δ))
    (rep ciDim : δ) : Py (DataArray δ (Option K)) :=
  (selectAxisDim boot.dims [] axis dim none none false).bind fun sd =>
  (renameOpt jack sd.2 rep).bind fun jack' =>
  let wantHat := method = "basic" ∨ method = "bca"
  let wantJack := method = "bca"
  if wantHat ∧ hat.isNone then .error .typeError
  else if wantJack ∧ jack'.isNone then .error .typeError
  else
    (applyCI N boot (if wantHat then hat else none) (if wantJack then jack' else none) alpha.alphas
      method sd.2 rep ciDim).bind fun y =>
    y.transposeStrict [some ciDim, none]

end Cmomy.Labelled
