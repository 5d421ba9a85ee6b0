import Verif.Model.ValsOps
import Verif.Spec.AxisOps

/-!
# What a call with values and weights of any shape should give

Independent of how the code moves axes, allocates results and calls gufuncs.
-/

namespace Cmomy.Spec

open Nd

/-- `full` is the common shape of arrays of the given shapes: aligned at the end, every array has
size one or the common size on each of its axes, and every common size is that of some array. -/
structure IsBroadcast (shapes : List (List ℕ)) (full : List ℕ) : Prop where
  rank : ∀ s ∈ shapes, s.length ≤ full.length
  fits : ∀ s ∈ shapes, ∀ p < s.length,
    s.getD p 0 = 1 ∨ s.getD p 0 = full.getD (p + (full.length - s.length)) 0
  attained : ∀ q < full.length, ∃ s ∈ shapes, full.length ≤ q + s.length ∧
    s.getD (q + s.length - full.length) 0 = full.getD q 0

variable {K V M : Type*}

/-- How far from the end of `x` its axis `z` is; the last axis has distance one. -/
def fromEnd (x : Arr K) (z : ℤ) : ℕ := x.shape.length - wrap x.shape.length z

/-- The number of samples. -/
def sampleCount (x : Arr K) (z : ℤ) : ℕ := axisSize x (wrap x.shape.length z)

/-- A weight or a further value is usable with `n` samples at distance `d` from the end: a number,
one number per sample, or an array with the samples at the same distance from its end. -/
def Usable (a : Arr K) (d n : ℕ) : Prop :=
  a.Proper ∧ (a.shape.length = 0 ∨ (a.shape.length = 1 ∧ axisSize a 0 = n) ∨
    (2 ≤ a.shape.length ∧ d ≤ a.shape.length ∧ axisSize a (a.shape.length - d) = n))

/-- The shapes that take part in broadcasting: that of `x` and of all arrays with more than one
axis. -/
def wideShapes (x : Arr K) (others : List (Arr K)) : List (List ℕ) :=
  x.shape :: (others.filter (fun a => 1 < a.shape.length)).map Arr.shape

/-- A call with values `x`, weight and further values `others`, along axis `z`, is well formed and
has the common shape `full`. -/
structure GoodValues (x : Arr K) (others : List (Arr K)) (z : ℤ) (full : List ℕ) : Prop where
  proper : x.Proper
  range : InRange x.shape.length z
  usable : ∀ a ∈ others, Usable a (fromEnd x z) (sampleCount x z)
  common : IsBroadcast (wideShapes x others) full

/-- The number an array contributes to sample `s` at index `i` of the common shape, which has `n`
axes and the samples on axis `ax`. -/
def operandAt (a : Arr K) (n ax : ℕ) (i : ℕ → ℕ) (s : ℕ) : K :=
  if a.shape.length = 0 then a.get (fun _ => 0)
  else if a.shape.length = 1 then a.get (fun _ => s)
  else a.get (fun p =>
    if p + (n - a.shape.length) = ax then s
    else if axisSize a p = 1 then 0
    else i (p + (n - a.shape.length)))

/-- The samples, values and weight, at index `i` of the common shape. -/
def samplesOver (val : List K → V) (x w : Arr K) (ys : List (Arr K)) (n ax count : ℕ) (i : ℕ → ℕ) :
    List (V × K) :=
  (List.range count).map (fun s =>
    (val ((x :: ys).map (fun a => operandAt a n ax i s)), operandAt w n ax i s))

/-- The moment coordinates of an index: the moment axes follow the `n` axes of the common shape. -/
def momCoords (n nd : ℕ) (i : ℕ → ℕ) : List ℕ := (List.range nd).map (fun j => i (n + j))

/-- Sizes: the common shape, with `count` on the sample axis, followed by the moment axes. -/
def valuesSize (full : List ℕ) (ax count : ℕ) (mom : List ℕ) (a : ℕ) : ℕ :=
  if a = ax then count
  else if a < full.length then full.getD a 0
  else (mom.map (· + 1)).getD (a - full.length) 0

/-- The axes of the result when the sample axis stays: where it was, or after the other axes. -/
def rowsLayout (n ax nd : ℕ) (axesToEnd : Bool) : List ℕ :=
  if axesToEnd then keptAxes n [ax] ++ ax :: (List.range nd).map (n + ·) else List.range (n + nd)

/-- The axes of the result when the sample axis is reduced. -/
def reducedLayout (n ax nd : ℕ) : List ℕ := keptAxes n [ax] ++ (List.range nd).map (n + ·)

end Cmomy.Spec
