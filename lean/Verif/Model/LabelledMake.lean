import Verif.Model.LabelledStats
import Verif.Model.LabelledObject
import Verif.Model.LabelledVals
import Verif.Model.ObjectMake

/-!
# Labelled objects made from arrays, from values, from raw moments and from nothing

The `DataArray` branches of `wrap`, `zeros_like`, `wrap_reduce_vals`, `wrap_resample_vals`, `wrap_raw`
(`wrapper/constructors.py:106-192`, `231-302`, `361-448`, `514-614`, `668-782`), of `new_like()`
(`wrapper/wrap_xr.py:251-311`) and of `vals_to_data` (`utils.py:848-985`), with
`core/moment_params.py:365-432`. Data types, `copy`, `out`, coordinates, attributes, dask and `Dataset`
are not modelled. An object is its array together with its moment parameters.
-/

namespace Cmomy.Labelled

open Axes Validate

variable {δ : Type} [DecidableEq δ]

/-- `core/moment_params.py:365-378` `MomParamsXArray` -/
structure PX (δ : Type) where
  ndim : ℤ
  dims : List δ
deriving DecidableEq

/-- `core/moment_params.py:380-398` `from_params`; `mom0`, `mom1` stand for `"mom_0"`, `"mom_1"`, `data`
are the dimensions of the array that names are taken from. -/
def fromParamsX (mom0 mom1 : δ) (ndim : Option ℤ) (dims : Option (DimsArg δ)) (axes : Option IntArg)
    (data : OutDims δ) (dflt : Option ℤ) : Py (PX δ) :=
  (validateMomDimsAndMomNdim mom0 mom1 dims ndim data dflt axes).map fun r => ⟨r.2, r.1⟩

/-- `core/moment_params.py:400-432` `factory`: parameters made earlier are taken as they are. An entry of
a dictionary, even if it is `None`, is used instead of the argument, except for the number of moments. -/
def factoryX (mom0 mom1 : δ) (mp : Input (PX δ) (DimsArg δ)) (ndim : Option ℤ)
    (dims : Option (DimsArg δ)) (axes : Option IntArg) (data : OutDims δ) (dflt : Option ℤ) :
    Py (PX δ) :=
  match mp with
  | .obj p =>
    match ndim with
    | some n => if p.ndim = n then .ok p else .error .assertion
    | none => .ok p
  | .absent => fromParamsX mom0 mom1 ndim dims axes data dflt
  | .dict n a d =>
    fromParamsX mom0 mom1 (if ndim.isSome then ndim else n.getD none) (d.getD dims) (a.getD axes) data
      dflt

/-- `wrapper/constructors.py:159-181` `wrap(obj, mom_ndim, mom_axes, mom_dims, mom_params)` without
`fastpath`, and `wrapper/wrap_xr.py:115-128`. -/
def wrapX {α : Type} (mom0 mom1 : δ) (obj : DataArray δ α) (mp : Input (PX δ) (DimsArg δ))
    (ndim : Option ℤ) (axes : Option IntArg) (dims : Option (DimsArg δ)) :
    Py (DataArray δ α × PX δ) :=
  (factoryX mom0 mom1 mp ndim dims axes (some obj.dims) (some 1)).bind fun p =>
  (constructX p.dims obj).map (·, p)

/-- `xr.zeros_like(obj)`: the same dimensions and sizes. -/
def DataArray.zerosLike {α : Type} [Zero α] (obj : DataArray δ α) : DataArray δ α :=
  ⟨⟨obj.dims, fun _ => 0⟩, obj.size⟩

/-- `wrapper/constructors.py:278-291` `zeros_like(c)` -/
def zerosLikeX {α : Type} [Zero α] (mom0 mom1 : δ) (c : DataArray δ α × PX δ) :
    Py (DataArray δ α × PX δ) :=
  wrapX mom0 mom1 c.1.zerosLike (.obj c.2) none none none

/-- `wrapper/wrap_xr.py:268-281` `new_like()` without an array. -/
def newLikeZeroX {α : Type} [Zero α] (c : DataArray δ α × PX δ) : Py (DataArray δ α × PX δ) :=
  (constructX c.2.dims c.1.zerosLike).map (·, c.2)

variable {K V M : Type} [Field K] [DecidableEq K]

/-- The weights of a call: one number for all samples if none are given, `reduction.py:210`,
`resample/resample.py:467`, `utils.py:936`. -/
def weightArgX (weight : Option (Operand δ K)) : Operand δ K := weight.getD (.plain (ObjectStats.num 1))

/-- `wrapper/constructors.py:423-448` `wrap_reduce_vals(x, *y, mom, weight, axis, dim, mom_dims,
mom_params)`. `val`, `core`, `fam` belong to one number of variables, and no claim is made if it is not
the number of moments. The object is made with `fastpath`. -/
def wrapReduceValsX (mom0 mom1 : δ) (val : List K → V) (core : Nd.Core K M)
    (fam : List ℕ → Kernel K V M) (mom : IntArg) (mp : Input (PX δ) (DimsArg δ))
    (dims : Option (DimsArg δ)) (x : DataArray δ K) (weight : Option (Operand δ K))
    (ys : List (Operand δ K)) (axis : Option (Option AxisArg)) (dim : Option (Option δ)) :
    Py (DataArray δ (Option K) × PX δ) :=
  (validateMom mom).bind fun m =>
  (factoryX mom0 mom1 mp (some m.length) dims none none none).bind fun p =>
  if m.length ≠ core.nd then .error .undefined
  else (reduceValsX val core fam (m.map Int.toNat) p.dims x (weightArgX weight :: ys) axis dim).map
    (·, p)

/-- `wrapper/constructors.py:585-614` `wrap_resample_vals(x, *y, mom, sampler, weight, axis, dim,
mom_dims, mom_params, rep_dim, axes_to_end)`, with the table of the sampler. -/
def wrapResampleValsX (mom0 mom1 : δ) (val : List K → V) (core : Nd.Core K M)
    (fam : List ℕ → Kernel K V M) (mom : IntArg) (mp : Input (PX δ) (DimsArg δ))
    (dims : Option (DimsArg δ)) (freq : List (List K)) (nsamp : ℕ) (x : DataArray δ K)
    (weight : Option (Operand δ K)) (ys : List (Operand δ K)) (axis : Option (Option AxisArg))
    (dim : Option (Option δ)) (rep : δ) (orderCF axesToEnd : Bool) :
    Py (DataArray δ (Option K) × PX δ) :=
  (validateMom mom).bind fun m =>
  (factoryX mom0 mom1 mp (some m.length) dims none none none).bind fun p =>
  if m.length ≠ core.nd then .error .undefined
  else (resampleValsX val core fam (m.map Int.toNat) p.dims freq nsamp x (weightArgX weight :: ys) axis
    dim rep orderCF axesToEnd).map (·, p)

/-- `wrapper/constructors.py:758-782` `wrap_raw(raw, mom_ndim, mom_axes, mom_dims, mom_params)`; `conv` is
the kernel that turns raw into central moments. The object is made with `fastpath`. -/
def wrapRawX (mom0 mom1 : δ) (core : Nd.Core K M) (conv : M → M) (raw : DataArray δ K)
    (mp : Input (PX δ) (DimsArg δ)) (ndim : Option ℤ) (axes : Option IntArg)
    (dims : Option (DimsArg δ)) : Py (DataArray δ K × PX δ) :=
  (factoryX mom0 mom1 mp ndim dims axes (some raw.dims) (some 1)).bind fun p =>
  if p.ndim ≠ core.nd then .error .undefined
  else (momentsTypeX core conv false raw p.dims false).map (·, p)

/-- `utils.py:938-984` `vals_to_data`, `DataArray` branch, for `out=None`: values, weight and further
values have no core dimensions, and `_vals_to_data` (`utils.py:996-1026`, `ObjectMake.valsToData`) is
called with the arrays that `apply_ufunc` makes of them. -/
def valsToDataX (mom0 mom1 : δ) (mom : IntArg) (mp : Input (PX δ) (DimsArg δ))
    (dims : Option (DimsArg δ)) (x : DataArray δ K) (weight : Option (Operand δ K))
    (ys : List (Operand δ K)) : Py (DataArray δ K) :=
  (validateMom mom).bind fun m =>
  (factoryX mom0 mom1 mp (some m.length) dims none none none).bind fun p =>
  if ys.length ≠ m.length - 1 then .error .valueError
  else
    let ops := .named x :: weightArgX weight :: ys
    let frames := ops.filterMap Operand.frame?
    (loopDims frames [] p.dims).bind fun loop =>
    (ops.mapM (fun o : Operand δ K => o.arrangeAs loop [])).bind fun as =>
    match as with
    | a :: w :: bs =>
      (ObjectMake.valsToData mom a (some w) bs).bind fun out =>
      wrapResult frames [] (loop ++ p.dims) out
    | _ => .error .typeError

end Cmomy.Labelled
