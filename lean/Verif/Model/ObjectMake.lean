import Verif.Model.ObjectOps
import Verif.Model.ObjectStats
import Verif.Model.ValsOps

/-!
# Array objects made from values, from raw moments and from nothing

`wrap`, `zeros_like`, `wrap_reduce_vals`, `wrap_resample_vals`, `wrap_raw`
(`wrapper/constructors.py:106-192`, `231-302`, `361-448`, `514-614`, `668-782`), `new_like()` and `zero()`
of an array object (`wrapper/wrap_np.py:260-311`, `1082-1115`) and `vals_to_data` (`utils.py:848-1026`), for
arrays. Data types, `copy`, `out`, `casting` and memory order are not modelled. An object is its array
together with its moment parameters.
-/

namespace Cmomy.ObjectMake

open Nd Axes Validate ObjectStats

/-- `wrapper/constructors.py:159-191` `wrap(obj, mom_ndim, mom_axes, mom_params)` without `fastpath`: the
parameters are made first, and handed to the constructor. -/
def wrap {K δ : Type} (obj : Arr K) (mp : Input PArray δ) (ndim : Option ℤ) (axes : Option IntArg) :
    Py (Arr K × PArray) :=
  (factory mp ndim axes (some 1)).bind fun p => construct (δ := δ) obj (.obj p) none none

/-- `wrapper/constructors.py:292-302` `zeros_like(c)` -/
def zerosLike {K : Type} [Zero K] (c : Arr K × PArray) : Py (Arr K × PArray) :=
  wrap (δ := Unit) ⟨c.1.shape, fun _ => 0⟩ (.obj c.2) none none

/-- `wrapper/wrap_np.py:260-311` `new_like()` without an array. -/
def newLikeZero {K : Type} [Zero K] (c : Arr K × PArray) : Py (Arr K × PArray) :=
  construct (δ := Unit) ⟨c.1.shape, fun _ => 0⟩ (.obj c.2) none none

/-- `wrapper/wrap_np.py:1082-1098` `fill(value)`: the array of the object afterwards. -/
def fill {K : Type} (c : Arr K × PArray) (value : K) : Arr K × PArray :=
  (⟨c.1.shape, fun _ => value⟩, c.2)

/-- `wrapper/wrap_np.py:1100-1115` `zero()` -/
def zero {K : Type} [Zero K] (c : Arr K × PArray) : Arr K × PArray := fill c 0

variable {K V M : Type*} [Field K] [DecidableEq K]

/-- The weights of a call: one number for all samples if none are given, `reduction.py:210`,
`resample/resample.py:467`, `utils.py:936`. -/
def weightArg (weight : Option (Arr K)) : Arr K := weight.getD (num 1)

/-- `validate.py:199-208` `validate_axis` after the number of arrays has been checked,
`core/prepare.py:103-109`. -/
def axisArg {α : Type*} (axis : Option AxisArg) (narrays want : ℕ) (f : AxisArg → Py α) : Py α :=
  if narrays ≠ want then .error .valueError else axis.elim (.error .typeError) f

/-- `wrapper/constructors.py:420-448` `wrap_reduce_vals(x, *y, mom, weight, axis, mom_params)`. The number
of moments decides between one and two variables; `val`, `core`, `fam` belong to one of them, and no claim
is made if they are the wrong ones. The object is made with `fastpath`. -/
def wrapReduceVals {δ : Type} (val : List K → V) (core : Core K M) (fam : List ℕ → Kernel K V M)
    (mom : IntArg) (mp : Input PArray δ) (x : Arr K) (weight : Option (Arr K)) (ys : List (Arr K))
    (axis : Option AxisArg) : Py (Arr (Option K) × PArray) :=
  (validateMom mom).bind fun m =>
  (factory mp (some m.length) none none).bind fun p =>
  if m.length ≠ core.nd then .error .undefined
  else axisArg axis (ys.length + 2) (core.nd + 1) fun a =>
    (reduceValsNd val core fam (m.map Int.toNat) p.axes x (weightArg weight :: ys) a).map (·, p)

/-- `wrapper/constructors.py:583-614` `wrap_resample_vals(x, *y, mom, sampler, weight, axis, mom_params,
axes_to_end)`, with the table of the sampler. -/
def wrapResampleVals {δ : Type} (val : List K → V) (core : Core K M) (fam : List ℕ → Kernel K V M)
    (mom : IntArg) (mp : Input PArray δ) (freq : List (List K)) (nsamp : ℕ) (x : Arr K)
    (weight : Option (Arr K)) (ys : List (Arr K)) (axis : Option AxisArg) (orderCF axesToEnd : Bool) :
    Py (Arr (Option K) × PArray) :=
  (validateMom mom).bind fun m =>
  (factory mp (some m.length) none none).bind fun p =>
  if m.length ≠ core.nd then .error .undefined
  else axisArg axis (ys.length + 2) (core.nd + 1) fun a =>
    (resampleValsNd val core fam (m.map Int.toNat) p.axes freq nsamp x (weightArg weight :: ys) a
      orderCF axesToEnd).map (·, p)

/-- `wrapper/constructors.py:756-782` `wrap_raw(raw, mom_ndim, mom_axes, mom_params)`; `conv` is the kernel
that turns raw into central moments. The object is made with `fastpath`: the moment axes stay where they
are. -/
def wrapRaw {δ : Type} (core : Core K M) (conv : M → M) (raw : Arr K) (mp : Input PArray δ)
    (ndim : Option ℤ) (axes : Option IntArg) : Py (Arr K × PArray) :=
  (factory mp ndim axes (some 1)).bind fun p =>
  if p.ndim ≠ core.nd then .error .undefined
  else (momentsTypeNd core conv false raw p.axes false).map (·, p)

/-- `utils.py:996-1026` `_vals_to_data`, for `out=None`: an array of zeros into which weight and means are
written. -/
def valsToData (mom : IntArg) (x : Arr K) (weight : Option (Arr K)) (ys : List (Arr K)) : Py (Arr K) :=
  (validateMom mom).bind fun m =>
  if ys.length ≠ m.length - 1 then .error .valueError
  else
    (broadcastShapes ((x :: ys ++ [weightArg weight]).map Arr.shape)).bind fun vs =>
    (Select.assignMoment ⟨vs ++ m.map (fun z => (z + 1).toNat), fun _ => 0⟩ (Select.axesLast m.length)
      (("weight", weightArg weight) :: ("xave", x) ::
        (if m.length = 2 then (ys.take 1).map (fun y => ("yave", y)) else [])) true false).2

end Cmomy.ObjectMake
