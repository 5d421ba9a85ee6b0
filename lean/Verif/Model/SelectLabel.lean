import Verif.Model.LabelledObject

/-!
# Selecting by label

`CentralMomentsData.sel` over a `DataArray`. What `xarray` and `pandas` do is given as a contract.
-/

namespace Cmomy.Labelled

open Nd

variable {δ α κ : Type} [DecidableEq δ] [DecidableEq κ]

/-- What is asked for along one dimension: a label, labels, or `slice(first, last)`. -/
inductive LabelSel (κ : Type)
  | one (l : κ)
  | many (ls : List κ)
  | upto (first last : κ)

/-- Contract of looking up labels in an index whose labels differ from each other (`get_loc`, `get_indexer`,
`slice_indexer`): the position of a label, the positions of labels, or all positions from the first label up to the last one,
which is included. A missing label is a `KeyError`. Labels that appear twice, missing labels of a slice, `method` and
`tolerance` are not modelled. -/
def LabelSel.place (labels : List κ) : LabelSel κ → Py Sel
  | .one l =>
    if ¬ labels.Nodup then .error .undefined
    else if l ∈ labels then .ok (.int (labels.idxOf l)) else .error .keyError
  | .many ls =>
    if ¬ labels.Nodup then .error .undefined
    else if ∀ l ∈ ls, l ∈ labels then .ok (.list (ls.map fun l => (labels.idxOf l : ℤ))) else .error .keyError
  | .upto first last =>
    if ¬ labels.Nodup ∨ first ∉ labels ∨ last ∉ labels then .error .undefined
    else .ok (.slice (some (labels.idxOf first)) (some (labels.idxOf last + 1)) none)

/-- Contract of looking up one argument of `sel`. Dimensions without labels are not modelled. -/
def DataArray.lookupLabel (x : DataArray δ α) (labels : δ → Option (List κ)) (p : δ × LabelSel κ) : Py (δ × Sel) :=
  match labels p.1 with
  | none => if p.1 ∈ x.dims then .error .undefined else .error .keyError
  | some ls => (p.2.place ls).map fun s => (p.1, s)

/-- Contract of `DataArray.sel`, where `labels d` are the labels along `d`: the positions are looked up in the order of the
arguments, then selected. -/
def DataArray.sel (x : DataArray δ α) (labels : δ → Option (List κ)) (sel : List (δ × LabelSel κ)) :
    Py (DataArray δ α) :=
  (sel.mapM (x.lookupLabel labels)).bind x.isel

/-- `wrapper/wrap_xr.py:1299-1390` `sel(indexers)` -/
def selX (moms : List δ) (obj : DataArray δ α) (labels : δ → Option (List κ)) (sel : List (δ × LabelSel κ)) :
    Py (DataArray δ α) :=
  (obj.sel labels sel).bind (newLikeX moms obj)

end Cmomy.Labelled
