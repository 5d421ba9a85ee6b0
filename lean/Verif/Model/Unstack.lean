import Verif.Model.LabelledObject

/-!
# Unstacking

`CentralMomentsData.unstack` over a `DataArray`. What `xarray` does is given as a contract. Of the labels of a stacked
dimension only the order of appearance matters, so the labels of each level are replaced by their numbers.
-/

namespace Cmomy.Labelled

open Nd

variable {δ α : Type} [DecidableEq δ]

/-- The index of a stacked dimension (`pandas.MultiIndex`): the names of the levels, the number of different labels of
each, and the numbers of the labels at each position. -/
structure MultiIndex (δ : Type) where
  names : List δ
  sizes : List ℕ
  codes : List (List ℕ)

/-- Contract of `stack`: the index of the stacked dimension, where the last level runs fastest. The labels along each
dimension are supposed to be different from each other, as they are if there are none. -/
def MultiIndex.product (names : List δ) (sizes : List ℕ) : MultiIndex δ :=
  ⟨names, sizes, (List.range sizes.prod).map (unravel sizes)⟩

/-- An index for a dimension of size `n`, without labels that do not appear (`remove_unused_levels`). -/
def MultiIndex.Fits (ix : MultiIndex δ) (n : ℕ) : Prop :=
  ix.names.Nodup ∧ ix.sizes.length = ix.names.length ∧ ix.codes.length = n ∧
    (∀ t ∈ ix.codes, t.length = ix.names.length ∧ ∀ i < ix.names.length, t.getD i 0 < ix.sizes.getD i 0) ∧
    ∀ i < ix.names.length, ∀ v < ix.sizes.getD i 0, ∃ t ∈ ix.codes, t.getD i 0 = v

instance multiIndexFits (ix : MultiIndex δ) (n : ℕ) : Decidable (ix.Fits n) := by unfold MultiIndex.Fits; infer_instance

/-- Contract of `x.unstack(dim, fill_value=fill)` where `dim` has the index `ix`: the levels become dimensions, put last. A
position which appears twice in the index is a `ValueError`. Names of levels which are names of dimensions are not
modelled. -/
def DataArray.unstack (x : DataArray δ α) (dim : δ) (ix : MultiIndex δ) (fill : α) : Py (DataArray δ α) :=
  if dim ∉ x.dims then .error .valueError
  else if ¬ ix.Fits (x.size dim) ∨ ∃ d ∈ ix.names, d ∈ x.dims then .error .undefined
  else if ¬ ix.codes.Nodup then .error .valueError
  else
    let others := x.dims.filter (fun d => decide (d ≠ dim))
    .ok { dims := others ++ ix.names
          data := fun idx =>
            let t := idx.drop others.length
            if t ∈ ix.codes then x.data (x.dims.map (fun d =>
              if d = dim then ix.codes.idxOf t else idx.getD (others.idxOf d) 0))
            else fill
          size := fun d => if d ∈ ix.names then ix.sizes.getD (ix.names.idxOf d) 0 else x.size d }

/-- `wrapper/wrap_xr.py:1165-1199` `unstack(dim, fill_value=fill)` -/
def unstackX (moms : List δ) (obj : DataArray δ α) (dim : δ) (ix : MultiIndex δ) (fill : α) : Py (DataArray δ α) :=
  (obj.unstack dim ix fill).bind (reorderX moms obj)

end Cmomy.Labelled
