import Verif.Model.Dataset
import Verif.Model.LabelledObject

/-!
# Objects over a `Dataset` and over a `DataArray`

`to_dataset` and `to_dataarray` of `CentralMomentsData` (`wrapper/wrap_xr.py:913-996`). xarray is not part of the
repository: `DataArray.to_dataset`, `Dataset.to_array` and `Dataset.transpose` are modelled by their contracts. Of the
coordinates only what matters for names, labels and the order of dimensions is kept; attributes are not modelled. Names of
variables and of dimensions are kept apart. An object is its array or data set together with `moms`, the names of its moment
dimensions; both methods make the new object with `fastpath=True`, so that nothing more is checked.
-/

namespace Cmomy.Labelled

variable {ν δ : Type} [DecidableEq ν] [DecidableEq δ] {α : Type}

/-- Contract of `x.loc[{dim: label}]` when the label is the one at place `k` and occurs only there. -/
def DataArray.place (x : DataArray δ α) (dim : δ) (k : ℕ) : DataArray δ α where
  dims := x.dims.filter (fun d => decide (d ≠ dim))
  data idx := x.data (x.dims.map fun d =>
    if d = dim then k else idx.getD ((x.dims.filter (fun d => decide (d ≠ dim))).idxOf d) 0)
  size := x.size

/-- Contract of `ds.transpose(..., *moms)`: a name that is no dimension of `ds` is a `ValueError`; the dimensions of
every variable are put in the order `all` that they have in `ds.dims`, those in `moms` last. -/
def Dataset.momentsLast (ds : Dataset ν δ α) (all moms : List δ) : Py (Dataset ν δ α) :=
  if ∃ d ∈ moms, d ∉ all then .error .valueError
  else
    let order := all.filter (fun d => decide (d ∉ moms)) ++ moms
    ds.mapVars fun _ x => x.step fun y => transpose y ((order.filter (fun d => decide (d ∈ x.dims))).map some)

/-- What a `DataArray` has besides its numbers: its name, the names of its coordinates, the dimensions of these in
order, and the labels along a dimension (`get_index`: numbers from zero if there is no such coordinate). -/
structure Extra (ν δ : Type) where
  name : Option ν
  coords : List ν
  coordDims : List δ
  labels : δ → List ν

/-- Contract of `DataArray._to_dataset_split(dim)`: one variable for every label. Nothing is claimed for repeated
labels, or if there are none. -/
def toDatasetSplit (x : DataArray δ α) (e : Extra ν δ) (dim : δ) : Py (Dataset ν δ α) :=
  if ¬ (e.labels dim).Nodup ∨ e.labels dim = [] then .error .undefined
  else if ∃ l ∈ e.labels dim, l ∈ e.coords then .error .valueError
  else .ok ((e.labels dim).mapIdx fun k l => (l, x.place dim k))

/-- Contract of `DataArray._to_dataset_whole(name)`. -/
def toDatasetWhole (x : DataArray δ α) (e : Extra ν δ) (name : Option ν) : Py (Dataset ν δ α) :=
  match name.or e.name with
  | none => .error .valueError
  | some n => if n ∈ e.coords then .error .valueError else .ok [(n, x)]

/-- `wrapper/wrap_xr.py:914-959` `to_dataset(dim, name=)` of an object over a `DataArray`. The dimensions of the data
set are those of the variables, then of the coordinates, or the other way round for one variable. -/
def toDatasetX (moms : List δ) (x : DataArray δ α) (e : Extra ν δ) (dim : Option δ) (name : Option ν) :
    Py (Dataset ν δ α) :=
  match dim with
  | some d =>
    if d ∉ x.dims then .error .typeError
    else if name ≠ none then .error .typeError
    else (toDatasetSplit x e d).bind fun ds =>
      ds.momentsLast (firstNames (ds.flatMap (fun v => v.2.dims) ++ e.coordDims.filter (fun c => decide (c ≠ d)))) moms
  | none => (toDatasetWhole x e name).bind fun ds => ds.momentsLast (firstNames (e.coordDims ++ x.dims)) moms

/-- Contract of `ds.to_array(dim)`: every variable is broadcast to the dimensions of all, and they are stacked. Nothing
is claimed if there are no variables, or if `dim` is a dimension already. -/
def Dataset.toArray (ds : Dataset ν δ α) (dim : δ) : Py (DataArray δ α) :=
  match ds with
  | [] => .error .undefined
  | v :: _ =>
    if ds.HasDim dim then .error .undefined
    else .ok {
      dims := dim :: ds.dims
      data := fun idx =>
        let y := ((ds[idx.headD 0]?).getD v).2
        y.data (y.dims.map fun d => idx.getD ((dim :: ds.dims).idxOf d) 0)
      size := fun d => if d = dim then ds.length else
        ((ds.find? (fun v => decide (d ∈ v.2.dims))).map fun v => v.2.size d).getD 0 }

/-- `wrapper/wrap_xr.py:961-996` `to_dataarray(dim)` of an object over a `Dataset`, and the labels along `dim`. -/
def toDataArrayX (moms : List δ) (ds : Dataset ν δ α) (dim : δ) : Py (DataArray δ α × List ν) :=
  (ds.toArray dim).bind fun y => (y.transposeStrict (none :: moms.map some)).map fun z => (z, ds.map Prod.fst)

end Cmomy.Labelled
