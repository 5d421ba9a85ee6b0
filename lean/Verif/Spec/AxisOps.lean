import Verif.Model.AxisOps
import Verif.Spec.NdArray

/-!
# What an operation along one axis of an array should give

Independent of how the code moves axes and of the gufunc machinery.
-/

namespace Cmomy.Spec

open Nd

/-- At every valid index `i` of the original array (with the sizes given by `size`), the array
`out`, whose axes are the listed axes of the original array, has the value `F i`. -/
def Shows {L : Type*} (out : Arr L) (layout : List ℕ) (size : ℕ → ℕ) (F : (ℕ → ℕ) → L) : Prop :=
  out.shape = layout.map size ∧
    ∀ i, (∀ a ∈ layout, i a < size a) → out.get (along layout i) = F i

/-- A call along axis `z` with moment axes `mom` is well formed. -/
structure GoodAxis {K : Type*} (data : Arr K) (mom : List ℤ) (z : ℤ) : Prop where
  proper : data.Proper
  momRange : ∀ m ∈ mom, InRange data.shape.length m
  momDistinct : (mom.map (wrap data.shape.length)).Nodup
  range : InRange data.shape.length z
  notMom : wrap data.shape.length z ∉ mom.map (wrap data.shape.length)

/-- The axes of the result: where they were, or the sample axis and the moment axes last. -/
def axesAfter (n ax : ℕ) (mom : List ℕ) (axesToEnd : Bool) : List ℕ :=
  if axesToEnd then keptAxes n (ax :: mom) ++ ax :: mom else List.range n

/-- The sizes of the result: the sample axis has a new size. -/
def sizesAfter {K : Type*} (data : Arr K) (ax newSize : ℕ) (a : ℕ) : ℕ :=
  if a = ax then newSize else axisSize data a

/-- The records met along axis `z`, the other axes staying at `i`: what the one-dimensional
operation is applied to. -/
abbrev sliceAt {K M : Type*} (core : Core K M) (data : Arr K) (mom : List ℤ) (z : ℤ) (i : ℕ → ℕ) :
    List M :=
  recordsOver core data (mom.map (wrap data.shape.length)) [wrap data.shape.length z] i

/-- The entry of a record at the moment coordinates of `i`. -/
abbrev entryAt {K M : Type*} (core : Core K M) (data : Arr K) (mom : List ℤ) (i : ℕ → ℕ) (r : M) :
    K :=
  core.ent r ((mom.map (wrap data.shape.length)).map i)

/-- Which axis of the original array each axis of the result is. -/
abbrev layoutAfter {K : Type*} (data : Arr K) (mom : List ℤ) (z : ℤ) (axesToEnd : Bool) : List ℕ :=
  axesAfter data.shape.length (wrap data.shape.length z) (mom.map (wrap data.shape.length))
    axesToEnd

/-- The axis of `alpha` that runs along the samples. -/
def alphaAxisOf (n : ℕ) (alphaAxis : Option ℤ) : ℕ :=
  match alphaAxis with
  | none => n - 1
  | some z => if n = 1 then 0 else wrap n z

/-- The number a smaller array `a` contributes at index `i` of the original array, for core index
`c`: its own axes that are not core axes are matched, from the end, with the axes `others` of the
original array; an axis of size one is repeated. -/
def matched {L : Type*} (a : Arr L) (core others : List ℕ) (i : ℕ → ℕ) (c : List ℕ) : L :=
  a.get (fun ax =>
    if ax ∈ core then c.getD (core.idxOf ax) 0
    else if axisSize a ax = 1 then 0
    else ((others.drop (others.length - (keptAxes a.shape.length core).length))[
      (keptAxes a.shape.length core).idxOf ax]?.map i).getD 0)

/-- The axes of `a` that are not core axes fit onto the axes `others` of `data`: not more of them,
and each, from the end, of size one or of the same size. -/
def FitsOnto {K L : Type*} (a : Arr L) (core : List ℕ) (data : Arr K) (others : List ℕ) : Prop :=
  ∃ front : List ℕ, ∃ back : List ℕ, others = front ++ back ∧
    List.Forall₂ (fun x y => axisSize a x = 1 ∨ axisSize a x = axisSize data y)
      (keptAxes a.shape.length core) back

end Cmomy.Spec
