import Verif.Model.DatasetConvert
import Verif.Spec.Dataset

/-!
# What converting between a data set and one array should give
-/

namespace Cmomy.Spec

open Labelled

variable {ν δ : Type} [DecidableEq δ] {α : Type}

/-- The moment dimensions come last, in their order. -/
def MomentsAtEnd (y : DataArray δ α) (moms : List δ) : Prop := ∃ front, y.dims = front ++ moms

/-- One variable for every label along `dim`: what the array has at that place, without the dimension. -/
structure SplitOf (ds : List (ν × DataArray δ α)) (x : DataArray δ α) (dim : δ) (labels : List ν) (moms : List δ) :
    Prop where
  names : ds.map Prod.fst = labels
  distinct : ∀ v ∈ ds, v.2.dims.Nodup
  dims : ∀ v ∈ ds, ∀ d, d ∈ v.2.dims ↔ d ∈ x.dims ∧ d ≠ dim
  last : ∀ v ∈ ds, MomentsAtEnd v.2 moms
  sizes : ∀ v ∈ ds, ∀ d ∈ v.2.dims, v.2.size d = x.size d
  entries : ∀ k v, ds[k]? = some v → ∀ c, entry v.2 c = entry x (Function.update c dim k)

/-- All variables in one array, numbered along `dim`; a variable is repeated along dimensions it does not have. -/
structure StackOf (out : DataArray δ α) (ds : List (ν × DataArray δ α)) (dim : δ) (moms : List δ) : Prop where
  distinct : out.dims.Nodup
  dims : ∀ d, d ∈ out.dims ↔ d = dim ∨ ∃ v ∈ ds, d ∈ v.2.dims
  last : MomentsAtEnd out moms
  count : out.size dim = ds.length
  sizes : ∀ v ∈ ds, ∀ d ∈ v.2.dims, out.size d = v.2.size d
  entries : ∀ k v, ds[k]? = some v → ∀ c, c dim = k → entry out c = entry v.2 c

/-- An array that may be split along `dim`. -/
structure Splittable (x : DataArray δ α) (e : Extra ν δ) (dim : δ) (moms : List δ) : Prop where
  distinct : x.dims.Nodup
  momDistinct : moms.Nodup
  momPresent : ∀ d ∈ moms, d ∈ x.dims
  present : dim ∈ x.dims
  notMom : dim ∉ moms
  labels : (e.labels dim).length = x.size dim
  different : (e.labels dim).Nodup
  nonempty : x.size dim ≠ 0
  free : ∀ l ∈ e.labels dim, l ∉ e.coords
  along : ∀ d ∈ e.coordDims, d ∈ x.dims

end Cmomy.Spec
