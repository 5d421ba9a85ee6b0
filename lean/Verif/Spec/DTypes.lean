import Verif.Model.DTypes
import Verif.Spec.Rounding

/-!
# Specification for data types

Which type is chosen, and what it means that the numbers of an argument are used as they were given.
-/

namespace Cmomy.Spec

open DTypes Nd

/-- The type asked for: that of `out`, else `dtype`, else that of the first argument, and `float64` if it has none. -/
def askedType (kind : Kind) (type : DType) (out dtype : Option DType) : DType :=
  (out.or dtype).getD (if kind = .plain then .float64 else type)

/-- The types results may have. -/
def IsFloatType (d : DType) : Prop := d = .float32 ∨ d = .float64

/-- The types of real numbers. -/
def IsReal (t : DType) : Prop := t ≠ .complex ∧ t ≠ .other

section

variable {K : Type*} [Field K] [LinearOrder K] [IsStrictOrderedRing K]

/-- What is assumed of the conversions: integers are cut off, the others are roundings, and numbers of a
floating point type are numbers of the wider ones. -/
structure IsConv (C : Conv K) : Prop where
  trunc_small : ∀ y, |y| < 1 → C.trunc y = 0
  trunc_idem : ∀ y, C.trunc (C.trunc y) = C.trunc y
  half : IsPrecision ⟨C.half, C.single⟩
  single : IsPrecision ⟨C.single, C.double⟩

/-- `y` is a number of type `t`. -/
def FitsType (C : Conv K) (t : DType) (y : K) : Prop := C.to t y = y

/-- All entries are numbers of type `t`. -/
def AllFit (C : Conv K) (t : DType) (a : Arr K) : Prop := ∀ i, FitsType C t (a.get i)

/-- An argument that NumPy could have been given: real numbers of its type. -/
structure Arg.Real (C : Conv K) (a : Arg K) : Prop where
  type : IsReal a.type
  fits : AllFit C a.type a.arr

/-- The numbers of an argument, converted once, to type `d`. -/
def once (C : Conv K) (d : DType) (a : Arg K) : Arr K := ⟨a.arr.shape, fun i => C.to d (a.arr.get i)⟩

/-- The numbers of an argument, converted to type `t` and then to type `d`. -/
def twice (C : Conv K) (t d : DType) (a : Arg K) : Arr K := ⟨a.arr.shape, fun i => C.to d (C.to t (a.arr.get i))⟩

/-- The argument does not pass through another type than `d`: it is an `ndarray` itself, or the first argument `x` is
not, or has type `d`, or the numbers are numbers of the type of `x`. -/
def Direct (C : Conv K) (d : DType) (x a : Arg K) : Prop :=
  a.kind = .ndarray ∨ x.kind ≠ .ndarray ∨ x.type = d ∨ AllFit C x.type a.arr

/-- What becomes of an argument when the type `t` of the first is imposed on it: an `ndarray` stays as it is. -/
def imposed (C : Conv K) (t : DType) (a : Arg K) : Arg K :=
  if a.kind = .ndarray then a else ⟨a.kind, t, ⟨a.arr.shape, fun i => C.to t (a.arr.get i)⟩⟩

/-- The argument with all numbers replaced by the integer `c`. -/
def constantly (c : K) (a : Arg K) : Arg K := ⟨a.kind, .int, ⟨a.arr.shape, fun _ => c⟩⟩

end

section

variable {δ K : Type} [Field K] [LinearOrder K] [IsStrictOrderedRing K]

/-- Real numbers of their type. -/
def XReal (C : Conv K) : XArg δ K → Prop
  | .named t y => IsReal t ∧ ∀ idx, FitsType C t (y.data idx)
  | .arg a => Arg.Real C a

/-- A labelled array with its numbers converted once. -/
def onceNamed (C : Conv K) (d : DType) (y : Labelled.DataArray δ K) : Labelled.DataArray δ K :=
  { y with data := fun idx => C.to d (y.data idx) }

/-- An argument beside a labelled array, converted once. -/
def onceX (C : Conv K) (d : DType) : XArg δ K → Labelled.Operand δ K
  | .named _ y => .named (onceNamed C d y)
  | .arg a => .plain (once C d a)

end

end Cmomy.Spec
