import Verif.Model.Dataset
import Verif.Model.LabelledObject

/-!
# Objects over a data set seen as dictionaries

`as_dict`, `keys`, `values`, `items`, iteration, `c[name]`, `c[names]`, `assign` and `new_like` of
`CentralMomentsData` over a `Dataset` (`wrapper/wrap_xr.py`). What xarray does when a variable is looked
up, several are selected, or some are assigned is stated by contract. Coordinates, attributes, data types
and dask are not modelled, neither are names that stand for coordinates.
-/

namespace Cmomy.Labelled

open Axes

variable {ν δ : Type} [DecidableEq ν] [DecidableEq δ] {α : Type}

/-- `core/xr_utils.py:160-162` `contains_dims(ds, *names)` -/
def Dataset.ContainsDims (ds : Dataset ν δ α) (names : List δ) : Prop := ∀ d ∈ names, ds.HasDim d

instance (ds : Dataset ν δ α) (names : List δ) : Decidable (ds.ContainsDims names) := by
  unfold Dataset.ContainsDims; infer_instance

/-- `core/moment_params.py:465-471` `get_mom_shape(ds)`; every failure becomes a `ValueError`. -/
def Dataset.momShape (ds : Dataset ν δ α) (moms : List δ) : Py (List ℕ) :=
  match moms.mapM ds.sizeOf with
  | .ok s => .ok s
  | .error _ => .error .valueError

/-- `wrapper/wrap_xr.py:100-131` with `core/moment_params.py:173-180` and `wrapper/wrap_abc.py:99-118`: an
object over a data set, made without `fastpath`. -/
def constructDs (moms : List δ) (ds : Dataset ν δ α) : Py (Dataset ν δ α) :=
  (ds.momShape moms).bind fun s =>
  if ∃ n ∈ s, n ≤ 1 then .error .valueError else .ok ds

/-- `wrapper/wrap_xr.py:237-241` and `291-295`: the check of a new data set. -/
def checkLikeDs (moms : List δ) (self obj : Dataset ν δ α) : Py (Dataset ν δ α) :=
  if ¬ obj.ContainsDims moms then .error .valueError
  else
    (obj.momShape moms).bind fun s =>
    (self.momShape moms).bind fun t =>
    if s ≠ t then .error .valueError else .ok obj

/-- `wrapper/wrap_xr.py:251-311` `new_like(obj)` of a data set, with neither `verify` nor `fastpath`. -/
def newLikeDs (moms : List δ) (self obj : Dataset ν δ α) : Py (Dataset ν δ α) :=
  (checkLikeDs moms self obj).bind (constructDs moms)

/-- `wrapper/wrap_xr.py:139-157` `as_dict`, and `159-168` `items`. -/
def asDict (moms : List δ) (ds : Dataset ν δ α) : List (ν × DataArray δ α) :=
  ds.filter (fun v => decide (∀ d ∈ moms, d ∈ v.2.dims))

/-- `wrapper/wrap_xr.py:170-174` `keys` -/
def keysDs (moms : List δ) (ds : Dataset ν δ α) : List ν := (asDict moms ds).map Prod.fst

/-- `wrapper/wrap_xr.py:176-180` `values` -/
def valuesDs (moms : List δ) (ds : Dataset ν δ α) : List (DataArray δ α) :=
  (asDict moms ds).map Prod.snd

/-- `wrapper/wrap_xr.py:189-210` `list(c)` of an object over a data set. -/
def iterDs (moms : List δ) (ds : Dataset ν δ α) : List ν := keysDs moms ds

/-- `wrapper/wrap_xr.py:228-247` `c[name]` of an object over a data set. -/
def getName (moms : List δ) (ds : Dataset ν δ α) (name : ν) : Py (DataArray δ α) :=
  match ds.lookup name with
  | none => .error .keyError
  | some x =>
    if ¬ ∀ d ∈ moms, d ∈ x.dims then .error .valueError
    else
      (ds.momShape moms).bind fun s =>
      if moms.map x.size ≠ s then .error .valueError else .ok x

/-- Contract of `ds[names]` with a list of names (`_copy_listed`). -/
def Dataset.listed (ds : Dataset ν δ α) (names : List ν) : Py (Dataset ν δ α) :=
  (firstNames names).mapM fun n =>
    match ds.lookup n with
    | none => .error .keyError
    | some x => .ok (n, x)

/-- `wrapper/wrap_xr.py:228-247` `c[names]` with a list of names. -/
def getNames (moms : List δ) (ds : Dataset ν δ α) (names : List ν) : Py (Dataset ν δ α) :=
  (ds.listed names).bind (checkLikeDs moms ds)

/-- Contract of `ds.assign(new)`: a variable there already is replaced where it is, others come last. -/
def Dataset.assign (ds new : Dataset ν δ α) : Py (Dataset ν δ α) :=
  Dataset.build (ds.map (fun v => (v.1, (new.lookup v.1).getD v.2)) ++
    new.filter (fun v => decide (v.1 ∉ ds.map Prod.fst)))

/-- `wrapper/wrap_xr.py:1052-1058` `c.assign(new)` -/
def assignDs (moms : List δ) (ds new : Dataset ν δ α) : Py (Dataset ν δ α) :=
  (ds.assign new).bind (newLikeDs moms ds)

end Cmomy.Labelled
