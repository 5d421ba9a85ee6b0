import Verif.Model.Select
import Verif.Model.AxisOps

/-!
# Methods of an array object that return another array object

`CentralMomentsArray`: `new_like`, `reshape`, `moveaxis`, `resample` (`wrapper/wrap_np.py:260-311`,
`974-1080`, `wrapper/wrap_abc.py:596-644`), `reduce`, `resample_and_reduce`, `jackknife_and_reduce`
and `cumulative` (`wrapper/wrap_np.py:614-633`, `713-903`). The moment axes of such an object are the
last `d` axes (`wrapper/wrap_np.py:166-171`). Data types, memory order, `casting` and `out` are not
modelled; whether a result shares memory with the object is not modelled either.
-/

namespace Cmomy.ObjectOps

open Nd Axes

variable {K : Type*}

/-- `core/moment_params.py:326-332` `get_mom_shape(data)` for moment axes `-d, ..., -1`: any failure
becomes a `ValueError`. -/
def momShape (d : ℕ) (obj : Arr K) : Py (List ℕ) :=
  if obj.shape.length < d then .error .valueError
  else .ok (obj.shape.drop (obj.shape.length - d))

/-- `wrapper/wrap_np.py:260-311` `new_like(obj)` with `obj` given and `verify=False`: the moment shape has
to be that of the object (`_raise_if_wrong_mom_shape`). -/
def newLike (d : ℕ) (self obj : Arr K) : Py (Arr K) :=
  (momShape d self).bind fun want =>
  (momShape d obj).bind fun got =>
  if got ≠ want then .error .valueError else .ok obj

/-- `wrapper/wrap_np.py:967-971` `_raise_if_scalar()` -/
def raiseIfScalar (d : ℕ) (obj : Arr K) : Py Unit :=
  if obj.shape.length ≤ d then .error .valueError else .ok ()

/-- Contract of numpy's `reshape` for the sizes: one size may be `-1`, and is then what is left over.
For sizes below `-1`, which numpy does not document, no claim is made. -/
def resolveShape (total : ℕ) (req : List ℤ) : Py (List ℕ) :=
  if ∃ z ∈ req, z < -1 then .error .undefined
  else
    let known := ((req.filter (fun z => z ≠ -1)).map Int.toNat).prod
    if req.count (-1) = 0 then
      if known = total then .ok (req.map Int.toNat) else .error .valueError
    else if req.count (-1) = 1 then
      if known = 0 ∨ total % known ≠ 0 then .error .valueError
      else .ok (req.map (fun z => if z = -1 then total / known else z.toNat))
    else .error .valueError

/-- Row-major position of coordinates within axes of the given sizes. -/
def ravel : List ℕ → List ℕ → ℕ
  | _ :: ds, c :: cs => c * ds.prod + ravel ds cs
  | _, _ => 0

/-- Contract of `a.reshape(shape)`, once the sizes are known: the element at a position of the new
array is the one at the same position of the old one, counting row by row (`order` `None` or `"C"`) or
column by column (`order="F"`). -/
def reshapeTo (a : Arr K) (shape : List ℕ) (fortran : Bool) : Arr K where
  shape := shape
  get i :=
    let coords := (List.range shape.length).map i
    a.get (fun ax =>
      (if fortran then (unravel a.shape.reverse (ravel shape.reverse coords.reverse)).reverse
        else unravel a.shape (ravel shape coords)).getD ax 0)

/-- `wrapper/wrap_np.py:974-1031` `reshape(shape, order)` -/
def reshape (d : ℕ) (obj : Arr K) (shape : List ℤ) (fortran : Bool) : Py (Arr K) :=
  (raiseIfScalar d obj).bind fun _ =>
  (momShape d obj).bind fun ms =>
  (resolveShape obj.shape.prod (shape ++ ms.map (fun m : ℕ => (m : ℤ)))).bind fun s =>
  newLike d obj (reshapeTo obj s fortran)

/-- `utils.py:154-162` `moveaxis_order`, array branch, once `axes_to_end` is dealt with. `mom` are the
normalised moment axes; `none` in place of an argument is `MISSING`. -/
def moveOrderPlain (n : ℕ) (mom : Option (List ℕ)) (axis dest : Option AxesArg) (allowMom : Bool) :
    Py (List ℕ) :=
  (axis.elim (.error .typeError) fun a => normalizeAxisTuple a n (mom.map List.length) false).bind
    fun axes0 =>
  (dest.elim (.error .typeError) fun a => normalizeAxisTuple a n (mom.map List.length) false).bind
    fun axes1 =>
  if allowMom = false ∧ (∃ m ∈ mom.getD [], m ∈ axes0 ++ axes1) then .error .valueError
  else moveaxisCore n axes0 axes1

/-- `utils.py:131-162` `moveaxis_order`, array branch, with the moment axes `mom` (`none` if the call
names none). With `axes_to_end`, `axis` may be missing, `dest` is not looked at, and the destinations
of the moment axes are `-d, ..., -1`. -/
def moveOrder (n : ℕ) (mom : Option (List ℤ)) (axis dest : Option AxesArg)
    (allowMom axesToEnd : Bool) : Py (List ℕ) :=
  Except.bind (match mom with
    | none => .ok none
    | some m => (normalizeAxes (m.map .int) n none false).map some) fun mom : Option (List ℕ) =>
  if axesToEnd then
    Except.bind (match axis with
      | none => .ok []
      | some a => normalizeAxisTuple a n (mom.map List.length) false) fun axs : List ℕ =>
    let ends := (List.range axs.length).map (fun j : ℕ => AxisArg.complex 0 (-(axs.length : ℚ) + j))
    match mom with
    | none => moveOrderPlain n none (some (.many (axs.map (fun a : ℕ => .int a))))
        (some (.many ends)) true
    | some ms => moveOrderPlain n (some ms)
        (some (.many ((axs ++ ms).map (fun a : ℕ => .int a))))
        (some (.many (ends ++ (Select.axesLast ms.length).map .int))) true
  else moveOrderPlain n mom axis dest allowMom

/-- `utils.py:198-309` `moveaxis`, array branch. -/
def moveaxisMom (x : Arr K) (mom : Option (List ℤ)) (axis dest : Option AxesArg)
    (allowMom axesToEnd : Bool) : Py (Arr K) :=
  (moveOrder x.shape.length mom axis dest allowMom axesToEnd).map x.transpose

/-- `wrapper/wrap_abc.py:596-644` `moveaxis(axis, dest, axes_to_end)` -/
def moveaxis (d : ℕ) (obj : Arr K) (axis dest : Option AxesArg) (axesToEnd : Bool) : Py (Arr K) :=
  (moveaxisMom obj (some (Select.axesLast d)) axis dest false axesToEnd).bind fun out =>
  newLike d obj out

/-- An integer array: its sizes, and its entries row by row. -/
structure IdxArr where
  shape : List ℕ
  vals : List ℤ

/-- The entry at the coordinates `c`. -/
def IdxArr.at (idx : IdxArr) (c : List ℕ) : ℤ := idx.vals.getD (ravel idx.shape c) 0

/-- Contract of `np.take(a, indices, axis=ax)`: the axis is replaced by the axes of `indices`; negative
indices count from the end. -/
def npTake (a : Arr K) (idx : IdxArr) (ax : ℕ) : Py (Arr K) :=
  if ∃ z ∈ idx.vals, z < -(a.shape.getD ax 0 : ℤ) ∨ (a.shape.getD ax 0 : ℤ) ≤ z then
    .error .indexError
  else .ok {
    shape := a.shape.take ax ++ idx.shape ++ a.shape.drop (ax + 1)
    get := fun i => a.get (fun p =>
      if p < ax then i p
      else if p = ax then
        pyIdx (a.shape.getD ax 0) (idx.at ((List.range idx.shape.length).map (fun q => i (ax + q))))
      else i (p + idx.shape.length - 1)) }

/-- `wrapper/wrap_np.py:1034-1080` `resample(indices, axis, last)`; `none` is a missing axis or
`None`. -/
def resample (d : ℕ) (obj : Arr K) (idx : IdxArr) (axis : Option AxisArg) (last : Bool) :
    Py (Arr K) :=
  (raiseIfScalar d obj).bind fun _ =>
  (axis.elim (.error .typeError) fun a => normalizeAxisIndex a obj.shape.length (some d)).bind
    fun ax =>
  let lastDim := obj.shape.length - d - 1
  (if last = true ∧ ax ≠ lastDim then
      (obj.moveaxis [ax] [(lastDim : ℤ)]).bind fun o => npTake o idx lastDim
    else npTake obj idx ax).bind fun out =>
  newLike d obj out

section Collect

variable {V M : Type*} [Field K] [DecidableEq K]

/-- `resample/sampler.py:666-678` `select_ndat(data, axis)` for an object. -/
def selectNdat (d : ℕ) (obj : Arr K) (axis : Option AxesArg) : Py ℕ :=
  match axis with
  | some (.one a) =>
    (normalizeAxisIndex a obj.shape.length (some d)).bind fun ax =>
    if obj.shape.length - d ≤ ax then .error .valueError else .ok (obj.shape.getD ax 0)
  | _ => .error .typeError

/-- `wrapper/wrap_np.py:856-903` `reduce(axis, by, block, axes_to_end, keepdims)`, with `by` the group
numbers (`reduction.py:1026-1049`). `by` goes before `block`; `keepdims` is used only without both, and
`axes_to_end` only with one of them. -/
def reduce (core : Core K M) (k : Kernel K V M) (obj : Arr K) (axis : Option AxesArg)
    (by_ : Option (List ℤ)) (block : Option ℤ) (axesToEnd keepdims : Bool) : Py (Arr (Option K)) :=
  (match by_, block with
    | none, some b => (selectNdat core.nd obj axis).bind fun ndat =>
        (Block.blockBy ndat b .dropLast).map some
    | by_, _ => .ok by_).bind fun by_ =>
  match by_, axis with
  | _, none => .error .typeError
  | none, some a => reduceNd core k obj (Nd.axesLast core.nd) a keepdims false
  | some g, some (.one a) => groupedNd core k g obj a (Nd.axesLast core.nd) axesToEnd
  | some _, some _ => .error .typeError

/-- `wrapper/wrap_abc.py:755-810` `cumulative(axis, axes_to_end)` with an axis given. The result is an
array, not an object. -/
def cumulative (core : Core K M) (k : Kernel K V M) (obj : Arr K) (axis : AxisArg)
    (axesToEnd : Bool) : Py (Arr (Option K)) :=
  cumulativeNd core k false obj axis (Nd.axesLast core.nd) axesToEnd

/-- `wrapper/wrap_abc.py:866-965` `resample_and_reduce(axis, sampler, axes_to_end)` with the frequency table of
the sampler; the default axis is `-1` (`wrapper/wrap_np.py:716`). -/
def resampleAndReduce (core : Core K M) (k : Kernel K V M) (obj : Arr K) (freq : List (List K))
    (nsamp : ℕ) (axis : Option AxisArg) (axesToEnd : Bool) : Py (Arr (Option K)) :=
  resampleDataNd core k freq nsamp obj (axis.getD (.int (-1))) (Nd.axesLast core.nd) axesToEnd

/-- `wrapper/wrap_abc.py:968-1036` `jackknife_and_reduce(axis, axes_to_end)`, for
`data_reduced=None`; the default axis is `-1`
(`wrapper/wrap_np.py:803`). -/
def jackknifeAndReduce (core : Core K M) (k : Kernel K V M) (obj : Arr K) (axis : Option AxisArg)
    (axesToEnd : Bool) : Py (Arr (Option K)) :=
  jackknifeDataNd core k obj (axis.getD (.int (-1))) (Nd.axesLast core.nd) axesToEnd

end Collect

end Cmomy.ObjectOps
