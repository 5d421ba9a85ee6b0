import Verif.Model.LabelledCollect
import Verif.Spec.LabelledObject
import Verif.Spec.ObjectOps
import Verif.Spec.Grouped

/-!
# Which samples the cells of a collected labelled object stand for

Everything is said in terms of dimension names. `L c` are the samples which the object stands for at the
coordinates `c`.
-/

namespace Cmomy.Spec

open Labelled

variable {δ : Type} [DecidableEq δ] {K M : Type} {σ : Type*}

/-- An array with the listed dimensions, in that order, of the given sizes. No entry is missing, and at
all coordinates `c` they are the entries of a record that stands for the samples `L c`. -/
structure ResultNamed (core : Nd.Core K M) (H : List σ → M → Prop) (out : DataArray δ (Option K))
    (moms dims : List δ) (size : δ → ℕ) (L : (δ → ℕ) → List σ) : Prop where
  dims_eq : out.dims = dims
  size_eq : ∀ d ∈ dims, out.size d = size d
  holds : ∀ c, (∀ d ∈ dims, d ∉ moms → c d < size d) → ∃ r, H (L c) r ∧
    ∀ ms, Within (moms.map size) ms → entry out (withNames moms ms c) = some (core.ent r ms)

/-- The samples met at the `n` places along `dim`, place by place. -/
def samplesAlongName (L : (δ → ℕ) → List σ) (dim : δ) (n : ℕ) (c : δ → ℕ) : List (List σ) :=
  (List.range n).map (fun j => L (Function.update c dim j))

/-- All samples met when the dimensions `ds` run through their sizes. -/
def samplesOverNames (L : (δ → ℕ) → List σ) (size : δ → ℕ) (ds : List δ) (c : δ → ℕ) : List σ :=
  (allCoords size ds c).flatMap L

/-- The entries whose label is `g`, in order. -/
def withLabel {α : Type*} (g : ℤ) (labels : List (Option ℤ)) (l : List α) : List α :=
  (labels.zip l).filterMap (fun p => if p.1 = some g then some p.2 else none)

/-- `gs` are the labels that occur, negative ones left out, in increasing order. -/
def GroupsOf (labels : List (Option ℤ)) (gs : List ℤ) : Prop :=
  gs.Pairwise (· < ·) ∧ ∀ z, z ∈ gs ↔ some z ∈ labels ∧ 0 ≤ z

/-- A label that is neither missing nor negative stands at a position below `n` only. -/
def LabelsWithin (labels : List (Option ℤ)) (n : ℕ) : Prop :=
  ∀ i (z : ℤ), labels[i]? = some (some z) → 0 ≤ z → i < n

/-- Two objects can be added: the other one has the same moment dimensions, and no dimension which the
first one does not have or has with another size. -/
structure Addable (obj other : DataArray δ K) (moms : List δ) : Prop where
  distinct : other.dims.Nodup
  momPresent : ∀ d ∈ moms, d ∈ other.dims
  within : ∀ d ∈ other.dims, d ∈ obj.dims ∧ other.size d = obj.size d

end Cmomy.Spec
