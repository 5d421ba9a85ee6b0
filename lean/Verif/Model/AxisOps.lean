import Verif.Model.Gufunc
import Verif.Model.Rolling
import Verif.Model.Grouped
import Verif.Model.Convert

/-!
# Operations along one axis of an n-dimensional array of moments

The array branches of `cumulative`, `resample_data`, `jackknife_data`, `reduce_data_grouped`,
`reduce_data_indexed`, `rolling_data`, `rolling_exp_data` and `moments_type`, for `out=None`. An entry
of a result is `none` when it is `nan` on purpose or when a division by zero took place. Data types,
memory order and `casting` are not modelled, except where the memory order decides about success
(`moments_type`).
-/

namespace Cmomy.Nd

open Axes

variable {K V M : Type*} [Field K] [DecidableEq K]

/-- `core/prepare.py:53-80` `prepare_data_for_reduction`: the axis, the moment axes and the array
to use from then on. -/
def prepareData (data : Arr K) (axis : AxisArg) (momAxes : List ℤ) (nd : ℕ) (axesToEnd : Bool) :
    Py (ℤ × List ℤ × Arr K) :=
  (normalizeAxisIndex axis data.shape.length (some nd)).bind fun ax =>
  if axesToEnd then
    (data.moveaxisInt ((ax : ℤ) :: momAxes)
        (((data.shape.length : ℤ) - (nd + 1)) :: axesLast nd)).map
      fun d => ((data.shape.length : ℤ) - (nd + 1), axesLast nd, d)
  else .ok (ax, momAxes, data)

/-- The records along the core axes `axis :: mom` of an operand, at loop position `l`. -/
def recordsAt (core : Core K M) (data : Arr K) (cs : List ℕ) (L : ℕ) (l : ℕ → ℕ) : List M :=
  (List.range (data.shape.getD (cs.headD 0) 0)).map (fun s =>
    core.recd (fun ms => data.read cs L l (s :: ms)))

/-- A gufunc with signature `..., (sample, mom) -> (new, mom)` called with
`axes = mom_params.axes_data_reduction(..., axis=axis, out_has_axis=True)`
(`core/moment_params.py:273-300`): data and result have their core dimensions on the same axes.
`extra` are the loop shapes of the other operands. `kern l records r` is row `r` of the kernel's
result at loop position `l`. -/
def gufuncRows (core : Core K M) (data : Arr K) (axis : ℤ) (momAxes : List ℤ) (newSize : ℕ)
    (extra : List (List ℕ)) (kern : ℕ → (ℕ → ℕ) → List M → ℕ → Option M) :
    Py (Arr (Option K)) :=
  (coreAxes data.shape.length (axis :: momAxes)).bind fun cs =>
  (broadcastShapes (data.loopShape cs :: extra)).bind fun loop =>
  (coreAxes (loop.length + cs.length) (axis :: momAxes)).bind fun ocs =>
  .ok (place loop ocs (newSize :: cs.tail.map (fun a => data.shape.getD a 0)) (fun l c =>
    (kern loop.length l (recordsAt core data cs loop.length l) (c.headD 0)).map
      (fun r => core.ent r c.tail)))

/-- `data.shape[axis]` for an axis number as used by the drivers. -/
def sizeOf (data : Arr K) (axis : ℤ) : ℕ :=
  data.shape.getD (if axis < 0 then axis + data.shape.length else axis).toNat 0

/-- `convert.py:504-544` `_cumulative`. -/
def cumulativeInner (core : Core K M) (k : Kernel K V M) (inverse : Bool) (data : Arr K)
    (axis : ℤ) (momAxes : List ℤ) : Py (Arr (Option K)) :=
  gufuncRows core data axis momAxes (sizeOf data axis) [] (fun _ _ ds r =>
    (if inverse then k.cumulativeInverse ds else k.cumulative ds).bind (fun rows => rows[r]?))

/-- `convert.py:479-501` `cumulative`, array branch. -/
def cumulativeNd (core : Core K M) (k : Kernel K V M) (inverse : Bool) (data : Arr K)
    (axis : AxisArg) (momAxes : List ℤ) (axesToEnd : Bool) : Py (Arr (Option K)) :=
  (prepareData data axis momAxes core.nd axesToEnd).bind fun p =>
  cumulativeInner core k inverse p.2.2 p.1 p.2.1

/-- `resample/resample.py:301-346` `_resample_data`, with the table `freq` of the sampler; its
second axis, of length `nsamp`, has to be as long as the sample axis. -/
def resampleInner (core : Core K M) (k : Kernel K V M) (freq : List (List K)) (nsamp : ℕ)
    (data : Arr K) (axis : ℤ) (momAxes : List ℤ) : Py (Arr (Option K)) :=
  if nsamp ≠ sizeOf data axis then .error .valueError
  else gufuncRows core data axis momAxes freq.length [] (fun _ _ ds r =>
    ((k.resampleData freq ds)[r]?).join)

/-- `resample/resample.py:273-299` `resample_data`, array branch. -/
def resampleDataNd (core : Core K M) (k : Kernel K V M) (freq : List (List K)) (nsamp : ℕ)
    (data : Arr K) (axis : AxisArg) (momAxes : List ℤ) (axesToEnd : Bool) :
    Py (Arr (Option K)) :=
  (prepareData data axis momAxes core.nd axesToEnd).bind fun p =>
  resampleInner core k freq nsamp p.2.2 p.1 p.2.1

/-- A record read from an array some of whose records are undefined as a whole. -/
def recordOpt (core : Core K M) (g : List ℕ → Option K) : Option M :=
  match g (List.replicate core.nd 0) with
  | none => none
  | some _ => some (core.recd (fun ms => (g ms).getD 0))

/-- `resample/resample.py:899-950` `_jackknife_data`, with the moment axes of `data_reduced` as
given by `mom_axes_reduced`, or last. -/
def jackknifeReducedNd (core : Core K M) (k : Kernel K V M) (reduced : Arr (Option K))
    (momAxesReduced : Option (List ℤ)) (data : Arr K) (axis : ℤ) (momAxes : List ℤ) :
    Py (Arr (Option K)) :=
  (coreAxes reduced.shape.length (momAxesReduced.getD (axesLast core.nd))).bind fun rs =>
  gufuncRows core data axis momAxes (sizeOf data axis) [reduced.loopShape rs] (fun L l ds r =>
    (recordOpt core (reduced.read rs L l)).bind fun red =>
      ((k.jackknifeDataKernel red ds)[r]?).join)

/-- `resample/resample.py:787-896` `jackknife_data`, array branch, with `data_reduced=None`. -/
def jackknifeDataNd (core : Core K M) (k : Kernel K V M) (data : Arr K) (axis : AxisArg)
    (momAxes : List ℤ) (axesToEnd : Bool) : Py (Arr (Option K)) :=
  (reduceNd core k data momAxes (.one axis) false true).bind fun reduced =>
  (prepareData data axis momAxes core.nd axesToEnd).bind fun p =>
  jackknifeReducedNd core k reduced none p.2.2 p.1 p.2.1

/-- `reduction.py:1051-1097` `_reduce_data_grouped` for a one-dimensional `by`. The assertion inside
the kernel holds for every array allocated here. -/
def groupedInner (core : Core K M) (k : Kernel K V M) (by_ : List ℤ) (data : Arr K)
    (axis : ℤ) (momAxes : List ℤ) : Py (Arr (Option K)) :=
  if by_.length ≠ sizeOf data axis then .error .valueError
  else
    match by_.max? with
    | none => .error .valueError
    | some m =>
      if m + 1 < 0 then .error .valueError
      else
        gufuncRows core data axis momAxes (m + 1).toNat [] (fun _ _ ds r =>
          match k.groupedKernel ds by_ (List.replicate (m + 1).toNat (some k.zero)) with
          | .ok rows => (rows[r]?).join
          | .error _ => none)

/-- `reduction.py:1026-1049` `reduce_data_grouped`, array branch. -/
def groupedNd (core : Core K M) (k : Kernel K V M) (by_ : List ℤ) (data : Arr K)
    (axis : AxisArg) (momAxes : List ℤ) (axesToEnd : Bool) : Py (Arr (Option K)) :=
  (prepareData data axis momAxes core.nd axesToEnd).bind fun p =>
  groupedInner core k by_ p.2.2 p.1 p.2.1

/-- `reduction.py:1505-1563` `_reduce_data_indexed`. A read outside an array leaves an entry
undefined. -/
def indexedInner (core : Core K M) (k : Kernel K V M) (index start stop : List ℤ)
    (scale : Option (List K)) (data : Arr K) (axis : ℤ) (momAxes : List ℤ) :
    Py (Arr (Option K)) :=
  if (scale.getD (List.replicate index.length 1)).length ≠ index.length then .error .valueError
  else
    gufuncRows core data axis momAxes start.length [] (fun _ _ ds r =>
      match Indexed.kernel k ds index (scale.getD (List.replicate index.length 1)) start stop with
      | .ok rows => (rows[r]?).join
      | .error _ => none)

/-- `reduction.py:1469-1502` `reduce_data_indexed`, array branch. -/
def indexedNd (core : Core K M) (k : Kernel K V M) (index start stop : List ℤ)
    (scale : Option (List K)) (data : Arr K) (axis : AxisArg) (momAxes : List ℤ)
    (axesToEnd : Bool) : Py (Arr (Option K)) :=
  (prepareData data axis momAxes core.nd axesToEnd).bind fun p =>
  (Indexed.validateIndex (sizeOf p.2.2 p.1) index start stop).bind fun _ =>
  indexedInner core k index start stop scale p.2.2 p.1 p.2.1

/-- `rolling.py:298-308` `_pad_along_axis(data, axis, shift, fill_value=0.0)`: `pad = -shift`
zeros at the end of the axis. -/
def padAxis (data : Arr K) (axis : ℕ) (pad : ℕ) : Arr K where
  shape := data.shape.set axis (data.shape.getD axis 0 + pad)
  get i := if i axis < data.shape.getD axis 0 then data.get i else 0

/-- `out[..., pad:, ...]` on one axis. -/
def dropAxis {α : Type*} (out : Arr α) (axis : ℕ) (pad : ℕ) : Arr α where
  shape := out.shape.set axis (out.shape.getD axis 0 - pad)
  get i := out.get (Function.update i axis (i axis + pad))

/-- `rolling.py:311-321` `_optional_zero_missing_weight`: the weight entries that are `nan` become
zero. -/
def zeroMissingWeight (momAxes : List ℕ) (zero : Bool) (out : Arr (Option K)) : Arr (Option K) where
  shape := out.shape
  get i := if zero = true ∧ (∀ m ∈ momAxes, i m = 0) ∧ out.get i = none then some 0 else out.get i

/-- The axis number `z` as an index of a Python list of length `n`. -/
def pyIdx (n : ℕ) (z : ℤ) : ℕ := (if z < 0 then z + n else z).toNat

section Ordered

variable {K V M : Type*} [Field K] [LinearOrder K] [IsStrictOrderedRing K]

/-- `rolling.py:511-574` `_rolling_data`, for `1 ≤ window`. -/
def rollingInner (core : Core K M) (k : Kernel K V M) (window : ℕ) (minPeriods : Option ℤ)
    (center zeroMissing : Bool) (data : Arr K) (axis : ℤ) (momAxes : List ℤ) :
    Py (Arr (Option K)) :=
  let ax := pyIdx data.shape.length axis
  let pad := if center then (-Kernel.centerShift window).toNat else 0
  let d := if center then padAxis data ax pad else data
  (gufuncRows core d axis momAxes (sizeOf d axis) [] (fun _ _ ds r =>
    (k.rollingKernel window (max (minPeriods.getD window) 1) ds).bind
      (fun rows => (rows[r]?).join))).map fun out =>
  zeroMissingWeight (momAxes.map (pyIdx out.shape.length)) zeroMissing
    (if center then dropAxis out ax pad else out)

/-- `rolling.py:482-508` `rolling_data`, array branch. -/
def rollingDataNd (core : Core K M) (k : Kernel K V M) (window : ℕ) (minPeriods : Option ℤ)
    (center zeroMissing : Bool) (data : Arr K) (axis : AxisArg) (momAxes : List ℤ)
    (axesToEnd : Bool) : Py (Arr (Option K)) :=
  (prepareData data axis momAxes core.nd axesToEnd).bind fun p =>
  rollingInner core k window minPeriods center zeroMissing p.2.2 p.1 p.2.1

/-- `rolling.py:1087-1108` `_prepare_alpha_array(..., axes_to_end=False)`: a scalar is repeated
along the samples; the axis of a one-dimensional array, or an axis not given, is the last one. -/
def prepareAlpha (alpha : Arr K) (alphaAxis : Option AxisArg) (ndat : ℕ) : Py (ℤ × Arr K) :=
  if alpha.shape.length = 0 then .ok (-1, ⟨[ndat], fun _ => alpha.get (fun _ => 0)⟩)
  else
    match alphaAxis with
    | none => .ok (-1, alpha)
    | some a =>
      if alpha.shape.length = 1 then .ok (-1, alpha)
      else (normalizeAxisIndex a alpha.shape.length none).map fun ax =>
        (positiveToNegative ax alpha.shape.length, alpha)

/-- `rolling.py:1111-1168` `_rolling_exp_data`; `alpha` holds its samples along `alphaAxis`. -/
def rollingExpInner (core : Core K M) (k : Kernel K V M) (alpha : Arr K) (alphaAxis : ℤ)
    (adjust : Bool) (minPeriods : Option ℤ) (zeroMissing : Bool)
    (data : Arr K) (axis : ℤ) (momAxes : List ℤ) : Py (Arr (Option K)) :=
  (coreAxes alpha.shape.length [alphaAxis]).bind fun cs =>
  if sizeOf alpha alphaAxis ≠ sizeOf data axis then .error .valueError
  else
    (gufuncRows core data axis momAxes (sizeOf data axis) [alpha.loopShape cs] (fun L l ds r =>
      (k.rollingExpData adjust minPeriods
        ((List.range (sizeOf data axis)).map (fun s => alpha.read cs L l [s])) ds).bind
        (fun rows => (rows[r]?).join))).map fun out =>
    zeroMissingWeight (momAxes.map (pyIdx out.shape.length)) zeroMissing out

/-- `rolling.py:1047-1084` `rolling_exp_data`, array branch. -/
def rollingExpDataNd (core : Core K M) (k : Kernel K V M) (alpha : Arr K)
    (alphaAxis : Option AxisArg) (adjust : Bool) (minPeriods : Option ℤ) (zeroMissing : Bool)
    (data : Arr K) (axis : AxisArg) (momAxes : List ℤ) (axesToEnd : Bool) :
    Py (Arr (Option K)) :=
  (prepareData data axis momAxes core.nd axesToEnd).bind fun p =>
  (prepareAlpha alpha alphaAxis (sizeOf p.2.2 p.1)).bind fun al =>
  rollingExpInner core k al.2 al.1 adjust minPeriods zeroMissing p.2.2 p.1 p.2.1

end Ordered

/-- `convert.py:256-298` `moments_type`, array branch; `conv` is the kernel, signature
`(mom) -> (mom)`. When a memory order is asked for (`orderCF`), the result is allocated with the
shape of the input before its moment axes are placed; NumPy refuses a result whose core or loop
sizes do not fit. -/
def momentsTypeNd (core : Core K M) (conv : M → M) (orderCF : Bool) (data : Arr K)
    (momAxes : List ℤ) (axesToEnd : Bool) : Py (Arr K) :=
  let outAxes := if axesToEnd then axesLast core.nd else momAxes
  (coreAxes data.shape.length momAxes).bind fun cs =>
  (coreAxes data.shape.length outAxes).bind fun ocs =>
  let out := place (data.loopShape cs) ocs (cs.map (fun a => data.shape.getD a 0)) (fun l c =>
    core.ent (conv (core.recd (fun ms => data.read cs (data.loopShape cs).length l ms))) c)
  if orderCF = true ∧ out.shape ≠ data.shape then .error .valueError else .ok out

end Cmomy.Nd
