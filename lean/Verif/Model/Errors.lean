/-!
# Python exceptions as values
-/

namespace Cmomy

universe u

/-- The exception classes raised by the modelled code. `undefined` is not an exception: it marks
an out-of-bounds memory access in compiled code, after which nothing is known. -/
inductive PyErr
  | valueError
  | indexError
  | typeError
  | keyError
  | axisError
  | zeroDivision
  | assertion
  | recursion
  | undefined
deriving DecidableEq, Repr

/-- Result of a Python call. -/
abbrev Py (α : Type u) := Except PyErr α

instance {α : Type u} [DecidableEq α] : DecidableEq (Except PyErr α) := fun a b =>
  match a, b with
  | .ok x, .ok y => if h : x = y then isTrue (by rw [h]) else isFalse (by simpa using h)
  | .error x, .error y => if h : x = y then isTrue (by rw [h]) else isFalse (by simpa using h)
  | .ok _, .error _ => isFalse (by simp)
  | .error _, .ok _ => isFalse (by simp)

end Cmomy
