import Verif.Spec.Dataset

/-!
# What selecting and assigning variables of a data set should give
-/

namespace Cmomy.Spec

open Labelled

variable {ν δ : Type} [DecidableEq ν] [DecidableEq δ] {α : Type}

/-- A data set that can be wrapped: every moment dimension is there, with room for a moment. -/
structure GoodObject (ds : List (ν × DataArray δ α)) (moms : List δ) : Prop extends GoodDataset ds where
  present : ∀ d ∈ moms, ∃ v ∈ ds, d ∈ v.2.dims
  room : ∀ v ∈ ds, ∀ d ∈ moms, d ∈ v.2.dims → 2 ≤ v.2.size d

/-- `sub` has the variables of `ds` called `names`, in that order, each name once, and nothing else. -/
structure Selected (ds : List (ν × DataArray δ α)) (names : List ν) (sub : List (ν × DataArray δ α)) :
    Prop where
  values : ∀ v ∈ sub, v ∈ ds
  once : (sub.map Prod.fst).Nodup
  which : ∀ n, n ∈ sub.map Prod.fst ↔ n ∈ names
  order : names.Nodup → sub.map Prod.fst = names

/-- `v` is a variable after `new` has been assigned to `ds`: a new one, or an old one not replaced. -/
def After (ds new : List (ν × DataArray δ α)) (v : ν × DataArray δ α) : Prop :=
  v ∈ new ∨ (v ∈ ds ∧ ∀ u ∈ new, u.1 ≠ v.1)

/-- `out` is `ds` with `new` assigned: replaced variables stay where they were, others come last. -/
structure Assigned (ds new out : List (ν × DataArray δ α)) : Prop where
  which : ∀ v, v ∈ out ↔ After ds new v
  order : out.map Prod.fst =
    ds.map Prod.fst ++ (new.map Prod.fst).filter (fun n => decide (n ∉ ds.map Prod.fst))

/-- A data set that cannot follow `ds` when `new` is assigned: sizes that disagree, a moment dimension
lost, or another number of moments. -/
def BadAfter (ds new : List (ν × DataArray δ α)) (moms : List δ) : Prop :=
  (∃ v w, After ds new v ∧ After ds new w ∧ ∃ d ∈ v.2.dims, d ∈ w.2.dims ∧ v.2.size d ≠ w.2.size d) ∨
  (∃ d ∈ moms, ∀ v, After ds new v → d ∉ v.2.dims) ∨
  ∃ v, After ds new v ∧ ∃ w ∈ ds, ∃ d ∈ moms, d ∈ v.2.dims ∧ d ∈ w.2.dims ∧ v.2.size d ≠ w.2.size d

end Cmomy.Spec
