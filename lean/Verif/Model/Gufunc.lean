import Verif.Model.NdArray

/-!
# Calling a compiled kernel on n-dimensional arrays

The kernels of `_lib` are compiled to NumPy generalised ufuncs and called with an `axes` argument.
This is the part of the NumPy contract the drivers rely on: which axes hold the core dimensions of
an operand, how the remaining (loop) axes of all operands are broadcast, and where the core
dimensions of the result are placed.
-/

namespace Cmomy.Nd

open Axes

variable {K α : Type*}

/-- The axes that are not core axes, in order. -/
def loopAxes (n : ℕ) (core : List ℕ) : List ℕ := (List.range n).filter (fun a => a ∉ core)

/-- One item of `axes=`: every axis is normalised by the number of dimensions of its operand
(`AxisError`), repeated axes are refused (`ValueError`). -/
def coreAxes (n : ℕ) (axes : List ℤ) : Py (List ℕ) := normalizeAxes (axes.map .int) n none false

/-- Sizes of the loop axes of an operand. -/
def Arr.loopShape (a : Arr K) (core : List ℕ) : List ℕ :=
  (loopAxes a.shape.length core).map (fun ax => a.shape.getD ax 0)

/-- Sizes seen at one position by several operands: all but ones have to agree. -/
def broadcastDim (ds : List ℕ) : Py ℕ :=
  match ds.filter (fun d => d ≠ 1) with
  | [] => .ok 1
  | d :: rest => if rest.all (fun e => e = d) then .ok d else .error .valueError

/-- The length of the longest shape. -/
def maxRank (shapes : List (List ℕ)) : ℕ := (shapes.map List.length).foldr max 0

/-- The size a shape has at position `p` of a common shape with `n` axes, when aligned at the
end. -/
def sizeFromEnd (n p : ℕ) (shape : List ℕ) : Option ℕ :=
  if n ≤ p + shape.length then shape[p + shape.length - n]? else none

/-- `np.broadcast_shapes(*shapes)`, and what a gufunc does with the loop shapes of its operands. -/
def broadcastShapes (shapes : List (List ℕ)) : Py (List ℕ) :=
  (List.range (maxRank shapes)).mapM (fun p =>
    broadcastDim (shapes.filterMap (sizeFromEnd (maxRank shapes) p)))

/-- What the kernel finds at core index `c` of operand `a` when the gufunc is at position `l` of
`L` loop axes: loop axes are aligned at the end, an axis of size one is repeated. -/
def Arr.read (a : Arr K) (core : List ℕ) (L : ℕ) (l : ℕ → ℕ) (c : List ℕ) : K :=
  a.get (fun ax =>
    if ax ∈ core then c.getD (core.idxOf ax) 0
    else if a.shape.getD ax 0 = 1 then 0
    else l ((loopAxes a.shape.length core).idxOf ax
      + (L - (loopAxes a.shape.length core).length)))

/-- The array a gufunc fills: core dimensions of the given sizes at the axes `core`, the loop
dimensions on the remaining axes in order; `f l c` is what the kernel writes at core index `c` when
at loop position `l`. -/
def place (loop core sizes : List ℕ) (f : (ℕ → ℕ) → List ℕ → α) : Arr α where
  shape := (List.range (loop.length + core.length)).map (fun p =>
    if p ∈ core then sizes.getD (core.idxOf p) 0
    else loop.getD ((loopAxes (loop.length + core.length) core).idxOf p) 0)
  get i := f (fun q => ((loopAxes (loop.length + core.length) core)[q]?.map i).getD 0) (core.map i)

/-- The error when the operands do not fit into an array that is written to: NumPy does not repeat
such an array. Whether it goes through with new leading axes that all have size one is not settled
here. -/
def widenError (loop outLoop : List ℕ) : PyErr :=
  if loop = List.replicate (loop.length - outLoop.length) 1 ++ outLoop then .undefined
  else .valueError

/-- `np.moveaxis(a, source, destination)` with axis numbers as a caller writes them. -/
def Arr.moveaxisInt (a : Arr K) (source destination : List ℤ) : Py (Arr K) :=
  (moveaxisOrder a.shape.length (source.map .int) (destination.map .int)).map a.transpose

/-- `core/moment_params.py:109-112` `_MOM_AXES_LAST[ndim]`: `(-1,)` or `(-2, -1)`. -/
def axesLast (nd : ℕ) : List ℤ := (List.range nd).map (fun j : ℕ => -(nd : ℤ) + j)

end Cmomy.Nd
