import Mathlib.Data.List.Basic
import Mathlib.Data.Int.Notation
import Mathlib.Algebra.Order.Ring.Int

/-!
# Axis numbering and axis moves
-/

namespace Cmomy.Spec

/-- The axis meant by the number `z` in an array with `n` axes: negative numbers count from the
end. -/
def wrap (n : ℕ) (z : ℤ) : ℕ := (z % n).toNat

/-- `z` names an axis of an array with `n` axes. -/
def InRange (n : ℕ) (z : ℤ) : Prop := -(n : ℤ) ≤ z ∧ z < n

/-- `order` is a rearrangement of the axes `0, ..., n-1` with every source at its destination and
all other axes in increasing order. -/
structure IsAxisMove (n : ℕ) (moves : List (ℕ × ℕ)) (order : List ℕ) : Prop where
  perm : order.Perm (List.range n)
  placed : ∀ m ∈ moves, order[m.2]? = some m.1
  rest : (order.filter (fun a => a ∉ moves.map Prod.fst)).Pairwise (· < ·)

end Cmomy.Spec
