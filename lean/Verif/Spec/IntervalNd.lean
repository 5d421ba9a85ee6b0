import Verif.Model.NdArray

/-!
# Places of an array

Specification: the elements of an array along one axis, at a place given by the coordinates on the
other axes.
-/

namespace Cmomy.Spec

open Nd

variable {α : Type*}

/-- The element with the given coordinates. -/
def elementAt (a : Arr α) (c : List ℕ) : α := a.get (fun p => c.getD p 0)

/-- The `n` elements along axis `ax` at the place `c` of the other axes. -/
def elementsAlong (a : Arr α) (ax n : ℕ) (c : List ℕ) : List α :=
  (List.range n).map (fun s => elementAt a (c.take ax ++ s :: c.drop ax))

/-- The estimate for the place `c`: the array has the axes of the places, or one more at `ax`, of size one. -/
def estimateAt (a : Arr α) (ax : ℕ) (c : List ℕ) : α :=
  if a.shape.length = c.length then elementAt a c else elementAt a (c.take ax ++ 0 :: c.drop ax)

/-- One coordinate within each size. -/
def InShape (c shape : List ℕ) : Prop := List.Forall₂ (· < ·) c shape

end Cmomy.Spec
