import Verif.Spec.LabelledNd

/-!
# Labelled replicates, estimates and leave-one-out estimates

Everything by dimension name; the order in which an array stores its dimensions does not appear.
-/

namespace Cmomy.Spec

open Labelled

variable {δ : Type} [DecidableEq δ] {α : Type}

/-- The entries met along `dim`, the other coordinates staying at `c`. -/
def valuesNamed (x : DataArray δ α) (dim : δ) (c : δ → ℕ) : List α :=
  (List.range (x.size dim)).map (fun s => entry x (Function.update c dim s))

/-- The arguments belong together: the estimates have the dimensions of the replicates except `dim`, the
leave-one-out estimates have all of them, in any order; sizes agree, but for `dim`. The names the call
adds are new. -/
structure SameNames (boot : DataArray δ α) (hat jack : Option (DataArray δ α)) (dim rep ciDim : δ) :
    Prop where
  distinct : boot.dims.Nodup
  present : dim ∈ boot.dims
  hatDims : ∀ h ∈ hat, h.dims.Perm (boot.dims.filter (fun d => decide (d ≠ dim)))
  hatSize : ∀ h ∈ hat, ∀ d ∈ h.dims, h.size d = boot.size d
  jackDims : ∀ j ∈ jack, j.dims.Perm boot.dims
  jackSize : ∀ j ∈ jack, ∀ d ∈ j.dims, d ≠ dim → j.size d = boot.size d
  repNew : rep ∉ boot.dims
  ciNew : ciDim ∉ boot.dims
  newDistinct : rep ≠ ciDim

/-- The estimates the method uses. -/
def usedHat {β : Type} (method : String) (hat : Option β) : Option β :=
  if method = "basic" ∨ method = "bca" then hat else none

/-- The leave-one-out estimates the method uses. -/
def usedJack {β : Type} (method : String) (jack : Option β) : Option β :=
  if method = "bca" then jack else none

end Cmomy.Spec
