import Verif.Model.Errors
import Mathlib.Data.List.Basic

/-!
# Dimension order of labelled arrays

`core/xr_utils.py:165-232` and its callers. xarray itself is not part of the repository; its
`transpose` and the dimension order of `apply_ufunc` are modelled by their documented contracts.
`δ` is the type of dimension names; `none : Option δ` is the ellipsis `...`.
-/

namespace Cmomy.Labelled

variable {δ : Type} [DecidableEq δ]

/-- Contract of xarray's `infix_dims(supplied, all, missing_dims="ignore")`: names that are not
dimensions are dropped, the ellipsis stands for all dimensions not named; without it, the names must
be exactly the dimensions. -/
def infixDims (supplied : List (Option δ)) (all : List δ) : Py (List δ) :=
  let existing := supplied.filter (fun o => o.all (fun d => decide (d ∈ all)))
  if none ∈ supplied then
    if ¬ all.Nodup ∨ supplied.count none > 1 then .error .valueError
    else
      let other := all.filter (fun d => decide (some d ∉ supplied))
      .ok (existing.flatMap (fun o => o.elim other (fun d => [d])))
  else
    let names := existing.filterMap id
    if names.all (fun d => decide (d ∈ all)) && all.all (fun d => decide (d ∈ names)) then .ok names
    else .error .valueError

/-- A labelled array: dimension names and the entry at every multi-index. -/
structure Arr (δ α : Type) where
  dims : List δ
  data : List ℕ → α

/-- Contract of `ndarray.transpose(axes)`: axis `j` of the result is axis `axes[j]` of the input. -/
def npTranspose {α : Type} (n : ℕ) (data : List ℕ → α) (axes : List ℕ) : List ℕ → α :=
  fun idx => data ((List.range n).map (fun k => idx.getD (axes.idxOf k) 0))

/-- Contract of `x.transpose(*supplied, missing_dims="ignore")`. No names at all reverses the
dimensions; a repeated axis is a `ValueError` of numpy. -/
def transpose {α : Type} (x : Arr δ α) (supplied : List (Option δ)) : Py (Arr δ α) :=
  match (if supplied = [] then .ok x.dims.reverse else infixDims supplied x.dims) with
  | .error e => .error e
  | .ok dims =>
    if dims.Nodup then .ok ⟨dims, npTranspose x.dims.length x.data (dims.map x.dims.idxOf)⟩
    else .error .valueError

/-- `xr_utils.py:219-228`: the order asked for. `remove` is a set. -/
def targetOrder (template : List δ) (replace : List (δ × δ)) (remove : List δ)
    (prepend append : List (Option δ)) : List (Option δ) :=
  let order := remove.foldl (fun o r => if r ∈ o then o.erase r else o) template
  let order := if replace = [] then order else order.map (fun o => (replace.lookup o).getD o)
  prepend ++ order.map some ++ append

/-- `xr_utils.py:208-232` `_transpose_like`, for a `DataArray` template. -/
def transposeLike {α : Type} (x : Arr δ α) (template : List δ) (replace : List (δ × δ))
    (remove : List δ) (prepend append : List (Option δ)) : Py (Arr δ α) :=
  let order := targetOrder template replace remove prepend append
  if order ≠ x.dims.map some then transpose x order else .ok x

/-- Contract of `apply_ufunc` for one output: first the dimensions of the inputs that are not core
dimensions, in order of first appearance, then the output's core dimensions. -/
def applyUfuncDims (inputs : List (List δ)) (inCore : List (List δ)) (outCore : List δ) : List δ :=
  ((List.zip inputs inCore).flatMap (fun p => p.1.filter (fun d => decide (d ∉ p.2)))).reverse.dedup.reverse
    ++ outCore

/-- `reduction.py:530-541`: dimensions of the result of `reduce_data`. `dim` the reduced
dimensions, `moms` the moment dimensions. -/
def reduceDataDims {α : Type} (x : Arr δ α) (data dim moms : List δ) (keepdims axesToEnd : Bool) :
    Py (Arr δ α) :=
  if axesToEnd = false then transposeLike x data [] (if keepdims then [] else dim) [none] []
  else transpose x (none :: ((if keepdims then dim ++ moms else moms).map some))

/-- `rolling.py:472-480` and likewise `reduction.py:1011-1017`, `1437-1443`, `resample.py:859-865`,
`convert.py:469-475`: the result has the dimensions of the data. The `axes_to_end` branch is taken
for a `Dataset` only; a `DataArray` is left as it comes (`isDataset`). -/
def sameDims {α : Type} (x : Arr δ α) (data : List δ) (dim : δ) (moms : List δ)
    (axesToEnd isDataset : Bool) : Py (Arr δ α) :=
  if axesToEnd = false then transposeLike x data [] [] [none] []
  else if isDataset then transpose x (none :: some dim :: moms.map some)
  else .ok x

/-- `resample/resample.py:259-271`: `resample_data`, with the second transposition for a
`DataArray`. `axis` is the position of `dim` in `data`. -/
def resampleDataDims {α : Type} (x : Arr δ α) (data : List δ) (dim rep : δ) (axis : ℕ)
    (moms : List δ) (axesToEnd isDataset : Bool) : Py (Arr δ α) :=
  if axesToEnd = false then
    match transposeLike x data [(dim, rep)] [] [none] [] with
    | .error e => .error e
    | .ok y =>
      if isDataset then .ok y
      else transpose y ((data.take axis ++ rep :: data.drop (axis + 1)).map some)
  else if isDataset then transpose x (none :: some rep :: moms.map some)
  else .ok x

/-- `rolling.py:746-753`, `1347-1354`, `resample/resample.py:533-549`, `1145-1151`: results of
values; `replace` is empty or renames `dim` to `rep`. -/
def valsDims {α : Type} (x : Arr δ α) (vals : List δ) (replace : List (δ × δ)) (dim : δ)
    (moms : List δ) (axesToEnd isDataset : Bool) : Py (Arr δ α) :=
  if axesToEnd = false then transposeLike x vals replace [] [none] (moms.map some)
  else if isDataset then transpose x (none :: some dim :: moms.map some)
  else .ok x

end Cmomy.Labelled
