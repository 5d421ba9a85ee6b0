import Verif.Model.LabelledJoin
import Verif.Spec.LabelledObject
import Verif.Spec.ObjectOps

/-!
# What moving dimensions and joining labelled objects should give
-/

namespace Cmomy.Spec

open Labelled

variable {δ : Type} [DecidableEq δ] {α : Type}

/-- Which dimensions, by their places, are meant by the arguments `axis`, `dim` (missing is `none`, `None`
is `some none`): those with the names given, all but the moment dimensions, or those with the numbers
given. -/
def PickedAxes (dims moms : List δ) (axis : Option Axes.AxesArg) (dim : Option (Option (List δ)))
    (s : List ℕ) : Prop :=
  (axis = none ∧ ∃ ds, dim = some (some ds) ∧ (∀ d ∈ ds, d ∈ dims) ∧ s = ds.map dims.idxOf) ∨
  (axis = none ∧ dim = some none ∧
    s = (dims.filter (fun d => decide (d ∉ moms))).map dims.idxOf) ∨
  (dim = none ∧ ∃ a, axis = some a ∧ NamesAxes dims.length moms.length a s)

/-- No moment dimension is at one of these places. -/
def NoMomentAt (dims moms : List δ) (s : List ℕ) : Prop := ∀ a ∈ s, ∀ d, dims[a]? = some d → d ∉ moms

/-- The dimension along which `concat` is asked to join: by its name, by a number, or, with neither, the
first one. -/
def JoinDim (dims : List δ) (axis : Option (Option Axes.AxisArg)) (dim : Option (Option δ)) (d : δ) :
    Prop :=
  (axis = none ∧ dim = none ∧ dims[0]? = some d) ∨ Chosen dims [] axis dim d

/-- Where the `k`-th of several arrays starts, when they are put behind one another along `dim`. -/
def startNamed (arrays : List (DataArray δ α)) (dim : δ) (k : ℕ) : ℕ :=
  ((arrays.take k).map (fun a => a.size dim)).sum

/-- The arrays have the same dimensions, in whatever order, of the same sizes but along `dim`. -/
structure Joinable (arrays : List (DataArray δ α)) (first : DataArray δ α) (dim : δ) : Prop where
  head : arrays[0]? = some first
  distinct : first.dims.Nodup
  perm : ∀ a ∈ arrays, a.dims.Perm first.dims
  size : ∀ a ∈ arrays, ∀ d ∈ first.dims, d ≠ dim → a.size d = first.size d

/-- `out` is the arrays one behind the other along their dimension `dim`. -/
structure JoinedNamed (out : DataArray δ α) (arrays : List (DataArray δ α)) (dims : List δ) (dim : δ) :
    Prop where
  dims_eq : out.dims = dims
  dim_size : out.size dim = startNamed arrays dim arrays.length
  size : ∀ a ∈ arrays, ∀ d ∈ dims, d ≠ dim → out.size d = a.size d
  part : ∀ (k : ℕ) (a : DataArray δ α), arrays[k]? = some a → ∀ c, c dim < a.size dim →
    entry out (Function.update c dim (startNamed arrays dim k + c dim)) = entry a c

/-- `out` is the arrays side by side along a new dimension `dim`, which comes first. -/
structure StackedNamed (out : DataArray δ α) (arrays : List (DataArray δ α)) (dims : List δ) (dim : δ) :
    Prop where
  dims_eq : out.dims = dim :: dims
  dim_size : out.size dim = arrays.length
  size : ∀ a ∈ arrays, ∀ d ∈ dims, out.size d = a.size d
  part : ∀ (k : ℕ) (a : DataArray δ α), arrays[k]? = some a → ∀ c, c dim = k → entry out c = entry a c

end Cmomy.Spec
