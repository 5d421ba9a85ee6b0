import Verif.Model.Dataset
import Verif.Spec.LabelledNd

/-!
# What an operation on a data set should give

Each variable on its own: either what the operation gives for that variable, or the variable as it
was.
-/

namespace Cmomy.Spec

open Labelled

variable {ν δ : Type} [DecidableEq δ] {α β : Type}

/-- A data set: different names, no variable with a repeated dimension, and dimensions of the same
name of the same size. -/
structure GoodDataset (ds : List (ν × DataArray δ α)) : Prop where
  names : (ds.map Prod.fst).Nodup
  distinct : ∀ v ∈ ds, v.2.dims.Nodup
  sizes : ∀ v ∈ ds, ∀ w ∈ ds, ∀ d ∈ v.2.dims, d ∈ w.2.dims → v.2.size d = w.2.size d

/-- All listed dimensions are dimensions of `x`. -/
def Has (x : DataArray δ α) (names : List δ) : Prop := ∀ d ∈ names, d ∈ x.dims

instance (x : DataArray δ α) (names : List δ) : Decidable (Has x names) := by
  unfold Has; infer_instance

/-- The same array: dimensions in the same order, sizes, and entries at all coordinates. -/
structure Alike (y z : DataArray δ α) : Prop where
  dims_eq : y.dims = z.dims
  size_eq : ∀ d ∈ y.dims, y.size d = z.size d
  entry_eq : ∀ c, entry y c = entry z c

/-- `out` has the variables of `ds`, in order and under the same names, each related by `R` to what it
was. -/
def EachVariable (R : ν → DataArray δ α → DataArray δ β → Prop) (ds : List (ν × DataArray δ α))
    (out : List (ν × DataArray δ β)) : Prop :=
  List.Forall₂ (fun v w => v.1 = w.1 ∧ R v.1 v.2 w.2) ds out

/-- `dims` with those in `last` moved to the end, in the order of `last`. -/
def lastOf (dims last : List δ) : List δ :=
  dims.filter (fun d => decide (d ∉ last)) ++ last.filter (fun d => decide (d ∈ dims))

/-- The dimensions of a copied variable, where results keep their dimensions. -/
def copyDims (dims : List δ) (dim : δ) (moms : List δ) (axesToEnd : Bool) : List δ :=
  if axesToEnd then lastOf dims (dim :: moms) else dims

/-- `y` is what `x` was, its dimensions in the order `dims`. -/
def CopyOf (lift : α → β) (x : DataArray δ α) (dims : List δ) (y : DataArray δ β) : Prop :=
  ShowsNamed y dims x.size (fun c => lift (entry x c))

/-- `y` is what `x` was, its dimensions in the order `dims` and `old` called `new`. -/
def CopyAs (lift : α → β) (x : DataArray δ α) (dims : List δ) (old new : δ) (y : DataArray δ β) :
    Prop :=
  ShowsNamed y (renamed dims old new) (fun d => if d = new then x.size old else x.size d)
    (fun c => lift (entry x (Function.update c old (c new))))

/-- A variable that has the dimensions `core` becomes what the call `single` gives for it alone,
another one is copied. -/
def OnItsOwn (core : List δ) (single : ν → DataArray δ α → Py (DataArray δ β))
    (copy : DataArray δ α → DataArray δ β → Prop) (n : ν) (x : DataArray δ α) (y : DataArray δ β) :
    Prop :=
  (Has x core → ∃ z, single n x = .ok z ∧ Alike y z) ∧ (¬ Has x core → copy x y)

/-- The order of the dimensions of a variable copied by `reduce_data`: kept dimensions last, or the
moment dimensions last. -/
def copyReduced (dims l moms : List δ) (keepdims axesToEnd : Bool) : List δ :=
  lastOf dims (if axesToEnd then (if keepdims then l ++ moms else moms)
    else if keepdims then dims else dims.filter (fun d => decide (d ∉ l)))

/-- The dimensions of `x` to reduce over: those asked for that it has, or all but the moment
dimensions. -/
def reducedOf (x : DataArray δ α) (moms : List δ) : Option (List δ) → List δ
  | some l => l.filter (fun d => decide (d ∈ x.dims))
  | none => x.dims.filter (fun d => decide (d ∉ moms))

end Cmomy.Spec
