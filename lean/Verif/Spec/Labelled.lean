import Verif.Model.Labelled

/-!
# Specification vocabulary: dimension order
-/

namespace Cmomy.Spec

open Labelled

variable {δ : Type} [DecidableEq δ]

/-- `res` holds exactly the dimensions `out`: first those that `target` does not name, in the order
they had, then the others in the order of `target`. -/
def OrderedAs (out target res : List δ) : Prop :=
  ∃ new old, res = new ++ old ∧ res.Perm out ∧ new.Sublist out ∧ (∀ d ∈ new, d ∉ target) ∧
    old.Sublist target

/-- Same entries at the same labels. -/
def SameValues {α : Type} (x y : Arr δ α) : Prop :=
  ∀ lab : δ → ℕ, x.data (x.dims.map lab) = y.data (y.dims.map lab)

/-- What a template asks for: its dimensions in order, the removed ones deleted and the renamed ones
replaced, then `append`. -/
def wantedDims (template : List δ) (replace : List (δ × δ)) (remove append : List δ) : List δ :=
  (template.filter (fun d => decide (d ∉ remove))).map (fun o => (replace.lookup o).getD o) ++ append

end Cmomy.Spec
