import Verif.Model.NdArray
import Verif.Spec.Axes

/-!
# Which samples a reduction over axes collects, and where the result sits

Independent of transposing and reshaping.
-/

namespace Cmomy.Spec

open Nd

/-- All indices obtained from `i` by letting each listed axis run through its size. -/
def allIdx : List (ℕ × ℕ) → (ℕ → ℕ) → List (ℕ → ℕ)
  | [], i => [i]
  | (ax, size) :: l, i => (List.range size).flatMap (fun c => allIdx l (Function.update i ax c))

variable {K M : Type*}

/-- The size of axis `ax`. -/
def axisSize (data : Arr K) (ax : ℕ) : ℕ := data.shape.getD ax 0

/-- The moment record stored at index `j`: entries are read along the moment axes. -/
def recordAt (core : Core K M) (data : Arr K) (momAxes : List ℕ) (j : ℕ → ℕ) : M :=
  core.recd (fun ms => data.get (fun a =>
    if a ∈ momAxes then ms.getD (momAxes.idxOf a) 0 else j a))

/-- All records met when the listed axes run through their sizes and the others stay at `i`. -/
def recordsOver (core : Core K M) (data : Arr K) (momAxes axes : List ℕ) (i : ℕ → ℕ) : List M :=
  (allIdx (axes.map (fun a => (a, axisSize data a))) i).map (recordAt core data momAxes)

/-- The axes that are not reduced. -/
def keptAxes (n : ℕ) (axes : List ℕ) : List ℕ := (List.range n).filter (fun a => a ∉ axes)

/-- The coordinates of `i` on the axes of `layout`, in that order. -/
def along (layout : List ℕ) (i : ℕ → ℕ) : ℕ → ℕ := fun p => (layout[p]?.map i).getD 0

/-- The array `out`, whose axes are the listed axes of the original array, has the value `F i` at
the original index `i`. -/
def HasLayout {L : Type*} (out : Arr L) (layout : List ℕ) (size : ℕ → ℕ) (F : (ℕ → ℕ) → L) : Prop :=
  out.shape = layout.map size ∧ ∀ i, out.get (along layout i) = F i

/-- Which axis of the original array each axis of the result is. -/
def resultAxes (n : ℕ) (mom axes : List ℕ) (keepdims axesToEnd : Bool) : List ℕ :=
  match axesToEnd, keepdims with
  | false, false => keptAxes n axes
  | false, true => List.range n
  | true, false => keptAxes n (axes ++ mom) ++ mom
  | true, true => keptAxes n (axes ++ mom) ++ axes ++ mom

/-- The value of a reduction over `axes` at the original index `i`: all records along the axes are
reduced, and the entry at the moment coordinates of `i` is taken. -/
def valueAt {V : Type*} [Field K] [DecidableEq K] (core : Core K M) (k : Kernel K V M) (data : Arr K) (mom axes : List ℕ)
    (i : ℕ → ℕ) : Option K :=
  (k.reduceDataFromZero (recordsOver core data mom axes i)).map (fun r => core.ent r (mom.map i))

/-- A call of `reduce_data` is well formed: integer axes in range, reduction axes distinct, at least
one, none of them a moment axis, and no kept axis of size zero. -/
structure GoodCall {K : Type*} (data : Arr K) (mom zs : List ℤ) : Prop where
  proper : data.Proper
  momRange : ∀ z ∈ mom, InRange data.shape.length z
  momDistinct : (mom.map (wrap data.shape.length)).Nodup
  range : ∀ z ∈ zs, InRange data.shape.length z
  distinct : (zs.map (wrap data.shape.length)).Nodup
  some_axis : zs ≠ []
  disjoint : ∀ a ∈ mom.map (wrap data.shape.length), a ∉ zs.map (wrap data.shape.length)
  nonempty : ∀ a ∈ keptAxes data.shape.length (zs.map (wrap data.shape.length)),
    axisSize data a ≠ 0

/-- The array `out` of possibly undefined numbers has the numbers of `arr`. -/
def AllSome {K : Type*} (out : Arr (Option K)) (arr : Arr K) : Prop :=
  out.shape = arr.shape ∧ ∀ i, out.get i = some (arr.get i)

end Cmomy.Spec
