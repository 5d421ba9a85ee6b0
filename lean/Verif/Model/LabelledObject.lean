import Verif.Model.LabelledNd
import Verif.Model.ObjectIndex

/-!
# Labelled objects made from other objects

`CentralMomentsData` over a `DataArray` (`wrapper/wrap_xr.py`) and the conversion from and to array
objects. An object is its labelled array together with the names of its moment dimensions. What xarray
does is stated by contract. Coordinates, attributes, names of arrays, data types, dask and `Dataset` are
not modelled.
-/

namespace Cmomy.Labelled

open ObjectIndex
open Nd (pyIdx)

variable {δ : Type} [DecidableEq δ] {α : Type}

/-- `core/moment_params.py:173-180` `check_data` with `get_mom` of named dimensions, and
`wrapper/wrap_abc.py:113-116`: the moment dimensions are there, and there is at least one moment on
each. -/
def constructX (moms : List δ) (obj : DataArray δ α) : Py (DataArray δ α) :=
  if ∃ d ∈ moms, d ∉ obj.dims then .error .valueError
  else if ∃ d ∈ moms, obj.size d ≤ 1 then .error .valueError
  else .ok obj

/-- `wrapper/wrap_xr.py:291-295` The minimal check of a new array. -/
def checkLike (moms : List δ) (self obj : DataArray δ α) : Py (DataArray δ α) :=
  if ∃ d ∈ moms, d ∉ obj.dims then .error .valueError
  else if moms.map obj.size ≠ moms.map self.size then .error .valueError
  else .ok obj

/-- `wrapper/wrap_xr.py:251-311` `new_like(obj)` with neither `verify` nor `fastpath`. -/
def newLikeX (moms : List δ) (self obj : DataArray δ α) : Py (DataArray δ α) :=
  (checkLike moms self obj).bind (constructX moms)

/-! ## Selecting by position -/

/-- What is selected along one dimension. -/
inductive Sel
  | int (z : ℤ)
  | slice (start stop step : Option ℤ)
  | list (l : List ℤ)
  | mask (l : List Bool)
deriving DecidableEq

/-- `slice(None)` -/
abbrev Sel.full : Sel := .slice none none none

/-- Selecting among `n` positions: the new size, unless the dimension is dropped, and the old position
for every new one. -/
def Sel.pick (n : ℕ) : Sel → Py (Option ℕ × (ℕ → ℕ))
  | .int z => if -(n : ℤ) ≤ z ∧ z < n then .ok (none, fun _ => pyIdx n z) else .error .indexError
  | .slice start stop step => (sliceIndices n start stop step).map fun s =>
      (some s.2.1, fun j => (s.1 + (j : ℤ) * s.2.2).toNat)
  | .list l => if ∀ z ∈ l, -(n : ℤ) ≤ z ∧ z < n then .ok (some l.length, fun j => pyIdx n (l.getD j 0))
      else .error .indexError
  | .mask l => if l.length = n then .ok (some (truePlaces l).length, fun j => (truePlaces l).getD j 0)
      else .error .indexError

/-- Contract of `DataArray.isel`: every dimension is selected from by itself. A name that is no
dimension is a `ValueError`. Labelled or multi-dimensional indexers are not modelled. -/
def DataArray.isel (x : DataArray δ α) (sel : List (δ × Sel)) : Py (DataArray δ α) :=
  if ∃ p ∈ sel, p.1 ∉ x.dims then .error .valueError
  else
    (x.dims.mapM (fun d => ((sel.lookup d).getD .full).pick (x.size d))).map fun r =>
      let pick : δ → Option ℕ × (ℕ → ℕ) := fun d => r.getD (x.dims.idxOf d) (none, id)
      let dims := x.dims.filter (fun d => (pick d).1.isSome)
      { dims := dims
        data := fun idx => x.data (x.dims.map (fun d => (pick d).2 (idx.getD (dims.idxOf d) 0)))
        size := fun d => (pick d).1.getD 0 }

/-- `wrapper/wrap_xr.py:1392-1427` `isel` -/
def iselX (moms : List δ) (obj : DataArray δ α) (sel : List (δ × Sel)) : Py (DataArray δ α) :=
  (obj.isel sel).bind (newLikeX moms obj)

/-- Contract of xarray's `expanded_indexer(key, ndim)`; `none` is the ellipsis. The first one is filled
up, the others mean `:`. -/
def expandedIndexer (ndim : ℕ) (key : List (Option Sel)) : Py (List Sel) :=
  let i := key.idxOf none
  let full := if none ∈ key then
      (key.take i).map (fun o => o.getD .full) ++ List.replicate (ndim + 1 - key.length) .full ++
        (key.drop (i + 1)).map (fun o => o.getD .full)
    else key.map (fun o => o.getD .full)
  if full.length > ndim then .error .indexError
  else .ok (full ++ List.replicate (ndim - full.length) .full)

/-- `wrapper/wrap_xr.py:228-247` `c[key]` -/
def getitemX (moms : List δ) (obj : DataArray δ α) (key : List (Option Sel)) :
    Py (DataArray δ α) :=
  (expandedIndexer obj.dims.length key).bind fun ks =>
  (obj.isel (obj.dims.zip ks)).bind (checkLike moms obj)

/-- `wrapper/wrap_xr.py:189-199` `list(c)`; a `DataArray` is iterated along its first dimension. -/
def iterX (moms : List δ) (obj : DataArray δ α) : Py (List (DataArray δ α)) :=
  if obj.dims.length ≤ moms.length then .error .valueError
  else
    match obj.dims with
    | [] => .error .typeError
    | d :: _ => (List.range (obj.size d)).mapM (fun k : ℕ =>
        (obj.isel [(d, .int k)]).bind (newLikeX moms obj))

/-! ## Dimensions -/

/-- Contract of `x.transpose(*dims)`; `none` is the ellipsis. -/
def DataArray.transposeStrict (x : DataArray δ α) (supplied : List (Option δ)) : Py (DataArray δ α) :=
  if ∃ d ∈ supplied.filterMap id, d ∉ x.dims then .error .valueError
  else x.step (fun y => transpose y supplied)

/-- `wrapper/wrap_xr.py:1429-1467` `transpose(*dims)` -/
def transposeX (moms : List δ) (obj : DataArray δ α) (dims : List (Option δ)) : Py (DataArray δ α) :=
  (obj.transposeStrict (dims.filter (fun o => o.all (fun d => decide (d ∉ moms))) ++
    moms.map some)).bind (newLikeX moms obj)

/-- `wrapper/wrap_abc.py:583-591` The end of `pipe` with `_reorder`. -/
def reorderX (moms : List δ) (self obj : DataArray δ α) : Py (DataArray δ α) :=
  (obj.transposeStrict (none :: moms.map some)).bind (newLikeX moms self)

/-- The coordinates along dimensions of the given sizes of item `j`, the last one running fastest. -/
def unravel : List ℕ → ℕ → List ℕ
  | [], _ => []
  | _ :: ns, j => j / ns.prod :: unravel ns (j % ns.prod)

/-- Contract of `x.stack({new: ds})`: the dimensions `ds` become one, put last. -/
def DataArray.stack (x : DataArray δ α) (new : δ) (ds : List δ) : Py (DataArray δ α) :=
  if ds = [] ∨ ¬ ds.Nodup then .error .undefined
  else if ∃ d ∈ ds, d ∉ x.dims then .error .valueError
  else if new ∈ x.dims then .error .valueError
  else
    let others := x.dims.filter (fun d => decide (d ∉ ds))
    .ok { dims := others ++ [new]
          data := fun idx => x.data (x.dims.map (fun d =>
            if d ∈ ds then (unravel (ds.map x.size) (idx.getD others.length 0)).getD (ds.idxOf d) 0
            else idx.getD (others.idxOf d) 0))
          size := fun d => if d = new then (ds.map x.size).prod else x.size d }

/-- `wrapper/wrap_xr.py:1082-1163` `stack({new: ds})` -/
def stackX (moms : List δ) (obj : DataArray δ α) (new : δ) (ds : List δ) : Py (DataArray δ α) :=
  (obj.stack new ds).bind (reorderX moms obj)

/-- `wrapper/wrap_xr.py:1072-1080` `rename({old: new})`: the names of the moment dimensions stay as they
were, and nothing is checked. -/
def renameX (obj : DataArray δ α) (old new : δ) : Py (DataArray δ α) := obj.rename old new

/-! ## From and to array objects -/

/-- `wrapper/wrap_xr.py:1470-1486` `to_array`, `to_c`: the array as it is stored. The last axes are taken
for the moment axes, `core/moment_params.py:455-463` and `:481-487`. -/
def toArrayX (obj : DataArray δ α) : Nd.Arr α := obj.values

/-- `wrapper/wrap_np.py:1188-1218` The names of all dimensions. `valName i`, `momName i` stand for
`f"dim_{i}"`, `f"mom_{i}"`. -/
def outputDims (valName momName : ℕ → δ) (n ndim : ℕ) (dims momDims : Option (List δ)) :
    Py (List δ) :=
  let ds := dims.getD ((List.range (n - ndim)).map valName)
  if ds.length = n then .ok ds
  else if ds.length = n - ndim then
    let ms := momDims.getD ((List.range ndim).map momName)
    if ms.length ≠ ndim then .error .valueError else .ok (ds ++ ms)
  else .error .valueError

/-- `wrapper/wrap_np.py:1181-1231` `to_dataarray`, `to_x` without a template: the array with names, and
the names of the last `ndim` dimensions. Repeated names are not modelled. -/
def toX (valName momName : ℕ → δ) (ndim : ℕ) (a : Nd.Arr α) (dims momDims : Option (List δ)) :
    Py (DataArray δ α × List δ) :=
  (outputDims valName momName a.shape.length ndim dims momDims).bind fun ds =>
  if ¬ ds.Nodup then .error .undefined
  else .ok (DataArray.ofNd ds a, ds.drop (ds.length - ndim))

/-- `wrapper/wrap_np.py:1186-1187` `to_x(template=...)`; `copy(data=...)` wants the shape of the
template. -/
def toXTemplate (ndim : ℕ) (a : Nd.Arr α) (template : DataArray δ α) :
    Py (DataArray δ α × List δ) :=
  if a.shape ≠ template.dims.map template.size then .error .valueError
  else .ok (DataArray.ofNd template.dims a, template.dims.drop (template.dims.length - ndim))

/-- `wrapper/wrap_xr.py:858-910` `CentralMomentsData.zeros`, without a template. -/
def zerosX [Zero α] (valName momName : ℕ → δ) (vs mom : List ℕ) (dims momDims : Option (List δ)) :
    Py (DataArray δ α × List δ) :=
  toX valName momName mom.length ⟨vs ++ mom.map (· + 1), fun _ => 0⟩ dims momDims

end Cmomy.Labelled
