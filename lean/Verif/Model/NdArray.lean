import Verif.Model.Axes
import Verif.Model.Loops

/-!
# n-dimensional arrays and reduction over several axes

`reduction.py:563-647`.
-/

namespace Cmomy.Nd

open Axes

/-- A numpy array: sizes of the axes and the element at every index. An index gives a coordinate
for every axis; coordinates of axes the array does not have are ignored (`Proper`). -/
structure Arr (K : Type*) where
  shape : List ℕ
  get : (ℕ → ℕ) → K

/-- Only coordinates of existing axes matter. -/
def Arr.Proper {K : Type*} (a : Arr K) : Prop :=
  ∀ i j : ℕ → ℕ, (∀ ax < a.shape.length, i ax = j ax) → a.get i = a.get j

variable {K : Type*}

/-- `a.transpose(*order)`: axis `p` of the result is axis `order[p]` of `a`. -/
def Arr.transpose (a : Arr K) (order : List ℕ) : Arr K where
  shape := order.map (fun ax => a.shape.getD ax 0)
  get i := a.get (fun ax => i (order.idxOf ax))

/-- `np.moveaxis(a, source, destination)`. -/
def Arr.moveaxis (a : Arr K) (source : List ℕ) (destination : List ℤ) : Py (Arr K) :=
  (moveaxisOrder a.shape.length (source.map (fun s : ℕ => .int s)) (destination.map .int)).map a.transpose

/-- Row-major position `p` within axes of the given sizes. -/
def unravel : List ℕ → ℕ → List ℕ
  | [], _ => []
  | _ :: ds, p => p / ds.prod :: unravel ds (p % ds.prod)

/-- `a.reshape(*a.shape[:-m], -1)`: the last `m` axes become one, in row-major order. numpy cannot
infer the `-1` when another size is `0`. -/
def Arr.mergeLast (a : Arr K) (m : ℕ) : Py (Arr K) :=
  if 0 ∈ a.shape.take (a.shape.length - m) then .error .valueError
  else .ok {
    shape := a.shape.take (a.shape.length - m) ++ [(a.shape.drop (a.shape.length - m)).prod]
    get := fun i => a.get (fun ax => if ax < a.shape.length - m then i ax
      else (unravel (a.shape.drop (a.shape.length - m)) (i (a.shape.length - m))).getD
        (ax - (a.shape.length - m)) 0) }

/-- `np.expand_dims(a, axes)`: the listed axes of the result are new, of size one. -/
def Arr.expandDims (a : Arr K) (axes : List ℕ) : Arr K where
  shape := (List.range (a.shape.length + axes.length)).map (fun ax =>
    if ax ∈ axes then 1
    else a.shape.getD
      (((List.range (a.shape.length + axes.length)).filter (fun p => p ∉ axes)).idxOf ax) 0)
  get i := a.get (fun p =>
    i (((List.range (a.shape.length + axes.length)).filter (fun p => p ∉ axes)).getD p 0))

/-- The index `i` with the coordinates of `axes` replaced by `vals`. -/
def setAxes (axes vals : List ℕ) (i : ℕ → ℕ) : ℕ → ℕ := fun a =>
  if a ∈ axes then vals.getD (axes.idxOf a) 0 else i a

/-- How a moment array `M` sits in the core dimensions of an array: `mom_ndim` dimensions, the
record with given entries, and the entries of a record. -/
structure Core (K M : Type*) where
  nd : ℕ
  recd : (List ℕ → K) → M
  ent : M → List ℕ → K

/-- `mom_ndim = 1` -/
def core1 : Core K (Mom K) where
  nd := 1
  recd f := fun m => f [m]
  ent r ms := r (ms.getD 0 0)

/-- `mom_ndim = 2` -/
def core2 : Core K (Com K) where
  nd := 2
  recd f := fun m n => f [m, n]
  ent r ms := r (ms.getD 0 0) (ms.getD 1 0)

variable {V M : Type*} [Field K] [DecidableEq K]

/-- The result of the gufunc `reduce_data_fromzero` (`_lib/push.py:91-102`, signature
`(sample, mom) -> (mom)`) called with `axes=[(-1, *mom_axes), mom_axes]`: for every position of the
other axes, all samples along the last axis are reduced. An entry is `none` when the reduction
divides by zero. -/
def gufuncOut (core : Core K M) (k : Kernel K V M) (a : Arr K) (momAxes : List ℕ) :
    Arr (Option K) where
  shape := a.shape.take (a.shape.length - 1)
  get i :=
    (k.reduceDataFromZero ((List.range (a.shape.getD (a.shape.length - 1) 0)).map (fun s =>
      core.recd (fun ms =>
        a.get (setAxes momAxes ms (Function.update i (a.shape.length - 1) s)))))).map
    (fun r => core.ent r (momAxes.map i))

/-- numpy's checks of `axes=[(-1, *mom_axes), mom_axes]`: it raises (a subclass of `ValueError`)
when a moment axis is repeated, equals the sample axis, or is not an axis of the output. -/
def reduceGufunc (core : Core K M) (k : Kernel K V M) (a : Arr K) (momAxes : List ℕ) :
    Py (Arr (Option K)) :=
  if ¬ momAxes.Nodup ∨ ∃ m ∈ momAxes, a.shape.length - 1 ≤ m then .error .valueError
  else .ok (gufuncOut core k a momAxes)

/-- `reduction.py:592-647`, after the axes are normalised, for `out=None`. The final
`np.moveaxis` for `axes_to_end` is numpy's. -/
def reduceCore (core : Core K M) (k : Kernel K V M) (data : Arr K) (momAxes axes : List ℕ)
    (keepdims axesToEnd : Bool) : Py (Arr (Option K)) :=
  if axes = [] then .ok ⟨data.shape, fun i => some (data.get i)⟩
  else
    (moveaxisOrder data.shape.length (axes.map (fun s : ℕ => .int s))
        ((List.range axes.length).map (fun j : ℕ => .int (-(axes.length : ℤ) + j)))).bind fun order =>
    ((data.transpose order).mergeLast axes.length).bind fun d =>
    (reduceGufunc core k d (momAxes.map order.idxOf)).bind fun out =>
    if axesToEnd then
      if keepdims then
        (out.expandDims axes).moveaxis (axes ++ momAxes)
          ((List.range (axes.length + momAxes.length)).map
            (fun j : ℕ => -((axes.length + momAxes.length : ℕ) : ℤ) + j))
      else
        out.moveaxis (momAxes.map order.idxOf)
          ((List.range momAxes.length).map (fun j : ℕ => -(momAxes.length : ℤ) + j))
    else if keepdims then .ok (out.expandDims axes)
    else .ok out

/-- `reduction.py:582-588`: `axis=None` means all axes that are not moment axes, whatever
`normalize_axis_tuple` would make of `None`. -/
def reductionAxes (axis : AxesArg) (ndim momNdim : ℕ) (mom : List ℕ) : Py (List ℕ) :=
  match axis with
  | .all => .ok ((List.range ndim).filter (fun a => a ∉ mom))
  | axis => normalizeAxisTuple axis ndim (some momNdim) false

/-- `reduction.py:563-647` `_reduce_data(data, mom_params, axis, keepdims, axes_to_end)` for
`out=None`; dtype and memory order are not modelled. -/
def reduceNd (core : Core K M) (k : Kernel K V M) (data : Arr K) (momAxes : List ℤ)
    (axis : AxesArg) (keepdims axesToEnd : Bool) : Py (Arr (Option K)) :=
  (normalizeAxes (momAxes.map .int) data.shape.length none false).bind fun mom =>
  (reductionAxes axis data.shape.length core.nd mom).bind fun axes =>
  reduceCore core k data mom axes keepdims axesToEnd

end Cmomy.Nd
