import Verif.Spec.LabelledObject

/-!
# Rearranging before or after
-/

namespace Cmomy.Spec

open Labelled

variable {δ : Type} [DecidableEq δ] {α : Type}

/-- The same dimensions, in whatever order, of the same sizes, and the same entry at all coordinates within them. -/
structure AgreeNamed (x y : DataArray δ α) : Prop where
  dims_perm : x.dims.Perm y.dims
  size_eq : ∀ d ∈ x.dims, x.size d = y.size d
  entry_eq : ∀ c, (∀ d ∈ x.dims, c d < x.size d) → entry x c = entry y c

/-- A selection along dimensions other than `d` and the moment dimensions, with the positions `pos`. -/
structure SelectsAside (obj : DataArray δ α) (moms : List δ) (d : δ) (sel : List (δ × Sel)) (pos : δ → List ℕ) : Prop where
  good : GoodSel obj sel pos
  notMom : ∀ p ∈ sel, p.1 ∉ moms
  aside : ∀ p ∈ sel, p.1 ≠ d

end Cmomy.Spec
