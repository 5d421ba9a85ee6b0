import Verif.Model.LabelledVals
import Verif.Model.ObjectMake
import Verif.Model.PushNd
import Verif.Model.Rounding

/-!
# Data types

Which type a result has, which types are refused, and in which type the numbers of the arguments arrive
in the compiled kernels: `select_dtype`, `asarray_maybe_recast` (`core/array_utils.py`),
`validate_floating_dtype` (`core/validate.py`), the conversions in `core/prepare.py`, and the ones NumPy
makes when a gufunc is called with a signature and `casting="same_kind"`.

Numbers are elements of a field; a conversion to a type is a function on them. Not modelled: overflow, nan, the
widths of integers, Python integers too large for double precision, other values of `casting`, and the
numbers of complex arrays. NumPy converts the arguments of a gufunc after it has matched their shapes, or before;
here they are converted first, so that of two reasons for an exception it may be the other one which is
reported.
-/

namespace Cmomy.DTypes

open Nd Axes Validate

/-- Types of arrays; `other` is any type not listed, such as `object` or `longdouble`. -/
inductive DType
  | bool
  | int
  | float16
  | float32
  | float64
  | complex
  | other
deriving DecidableEq, Repr

/-- The conversions of numbers made by NumPy: towards zero for integers, to nearest for the others. -/
structure Conv (K : Type*) where
  trunc : K → K
  half : K → K
  single : K → K
  double : K → K

/-- How an argument is given: as an `ndarray`, as something else that has a `dtype` (a `Series`, a NumPy scalar,
a `DataArray`), or as plain Python numbers and lists of them. -/
inductive Kind
  | ndarray
  | typed
  | plain
deriving DecidableEq, Repr

/-- An argument: its numbers, and the type of them. For plain numbers this is the type `np.asarray` finds. -/
structure Arg (K : Type*) where
  kind : Kind
  type : DType
  arr : Arr K

/-- An `ndarray` with its type. -/
structure TArr (K : Type*) where
  type : DType
  arr : Arr K

variable {K : Type*} [Field K] [DecidableEq K] (C : Conv K)

/-- A number converted to a type. -/
def Conv.to : DType → K → K
  | .bool, y => if y = 0 then 0 else 1
  | .int, y => C.trunc y
  | .float16, y => C.half y
  | .float32, y => C.single y
  | .float64, y => C.double y
  | .complex, y => y
  | .other, y => y

/-- An array with every number converted. -/
def mapArr {α β : Type*} (f : α → β) (a : Arr α) : Arr β := ⟨a.shape, fun i => f (a.get i)⟩

/-- `np.asarray(a, dtype=dtype)`. A plain complex number is refused where a real one is needed; of other things
the imaginary part is dropped with a warning, about which no claim is made. -/
def asarray (a : Arg K) (dtype : Option DType) : Py (TArr K) :=
  match dtype with
  | none => .ok ⟨a.type, a.arr⟩
  | some d =>
    if d = a.type then .ok ⟨d, a.arr⟩
    else if a.type = .other ∨ d = .other then .error .undefined
    else if a.type = .complex then (if a.kind = .plain then .error .typeError else .error .undefined)
    else .ok ⟨d, mapArr (C.to d) a.arr⟩

/-- `core/array_utils.py:205-213` `asarray_maybe_recast(data, dtype, recast)` -/
def asarrayMaybeRecast (a : Arg K) (dtype : Option DType) (recast : Bool) : Py (TArr K) :=
  if a.kind = .ndarray then
    if recast = true ∧ dtype ≠ none then asarray C a dtype else .ok ⟨a.type, a.arr⟩
  else asarray C a dtype

/-- `core/array_utils.py:150` `_ALLOWED_FLOAT_DTYPES` -/
def allowed : List DType := [.float32, .float64]

/-- `core/array_utils.py:176-202` `select_dtype(x, out=, dtype=)` for anything but a `Dataset`. -/
def selectDtype (kind : Kind) (type : DType) (out dtype : Option DType) : Py DType :=
  let d := match out, dtype with
    | some o, _ => o
    | none, some d => d
    | none, none => if kind = .plain then .float64 else type
  if d ∈ allowed then .ok d else .error .valueError

/-- `core/array_utils.py:188-191, 198-202` `select_dtype(x, out=, dtype=)` for a `Dataset`: `out` is ignored. -/
def selectDtypeDataset (dtype : Option DType) : Py (Option DType) :=
  match dtype with
  | none => .ok none
  | some d => if d ∈ allowed then .ok (some d) else .error .valueError

/-- `core/validate.py:133-162` `validate_floating_dtype(dtype)` -/
def validateFloatingDtype (dtype : Option DType) : Py (Option DType) :=
  match dtype with
  | none => .ok none
  | some d => if d = .float32 ∨ d = .float64 then .ok (some d) else .error .valueError

/-- The conversion of an argument of a gufunc called with type `d` and `casting="same_kind"`: numbers of any
real type may be converted to a floating point type, complex ones may not. -/
def castFn (d type : DType) : Py (K → K) :=
  if type = .other then .error .undefined
  else if type = .complex then .error .typeError
  else .ok (if d = type then id else C.to d)

/-- An array converted for a gufunc. -/
def gufuncCast (d : DType) (a : TArr K) : Py (Arr K) := (castFn C d a.type).map (mapArr · a.arr)

/-- `core/prepare.py:83-127` `prepare_values_for_reduction(target, *args, dtype=, recast=False)`, types only: the
further arrays get the type of the first. -/
def prepareTypes (x : Arg K) (others : List (Arg K)) (dtype : Option DType) : Py (TArr K × List (TArr K)) :=
  (asarrayMaybeRecast C x dtype false).bind fun t =>
  (others.mapM fun a => asarrayMaybeRecast C a (some t.type) false).bind fun os => .ok (t, os)

/-- The call of the gufunc with `signature=(d, …)`. -/
def callGufunc {β : Type*} (d : DType) (f : DType → Arr K → List (Arr K) → Py β) (p : TArr K × List (TArr K)) :
    Py β :=
  (gufuncCast C d p.1).bind fun x => (p.2.mapM (gufuncCast C d)).bind fun os => f d x os

/-- The array branches of `reduce_vals` (`reduction.py:210-280`), `resample_vals`
(`resample/resample.py:467-575`), `jackknife_vals` (`resample/resample.py:1072-1185`), `rolling_vals`
(`rolling.py:694-784`) and `rolling_exp_vals` (`rolling.py:1295-1385`): `f` is the rest of the function, and `others`
are the weight and the further values, or the weight, `alpha` and the further values. The result has
type `d`. -/
def valsCall {β : Type*} (f : DType → Arr K → List (Arr K) → Py β) (x : Arg K) (others : List (Arg K))
    (out dtype : Option DType) : Py (DType × β) :=
  (selectDtype x.kind x.type out dtype).bind fun d =>
  (prepareTypes C x others (some d)).bind fun p => (callGufunc C d f p).map (d, ·)

/-- `wrapper/wrap_np.py:563-575` `push_vals` into an object of type `d`. The same in `wrapper/wrap_xr.py:569-583` for
values without names. -/
def pushValsCall {β : Type*} (f : DType → Arr K → List (Arr K) → Py β) (d : DType) (x : Arg K)
    (others : List (Arg K)) : Py β :=
  (prepareTypes C x others (some d)).bind (callGufunc C d f)

/-- `wrapper/wrap_np.py:508-516` `push_val` into an object of type `d`, and `push_data`
(`wrapper/wrap_np.py:397-411`): NumPy makes arrays of the arguments. -/
def pushValCall {β : Type*} (f : DType → Arr K → List (Arr K) → Py β) (d : DType) (x : Arg K)
    (others : List (Arg K)) : Py β :=
  (asarray C x none).bind fun t => (others.mapM (asarray C · none)).bind fun os => callGufunc C d f (t, os)

/-- The functions on arrays of moments: `reduce_data` (`reduction.py:434, 548-560`), `reduce_data_grouped`
(`964, 1027-1050`), `reduce_data_indexed` (`1380, 1470-1500`), `resample_data` (`resample/resample.py:202, 274-299`),
`jackknife_data` (`787, 873-895`), `rolling_data` (`rolling.py:425, 483-510`), `rolling_exp_data` (`977, 1048-1075`) and
`cumulative` (`convert.py:422, 480-500`). -/
def dataCall {β : Type*} (f : DType → Arr K → Py β) (x : Arg K) (out dtype : Option DType) : Py (DType × β) :=
  (selectDtype x.kind x.type out dtype).bind fun d =>
  (asarrayMaybeRecast C x (some d) false).bind fun t => (gufuncCast C d t).bind fun a => (f d a).map (d, ·)

/-- `utils.py:935, 996-1026` `vals_to_data`: everything is converted at once. -/
def valsToDataCall {β : Type*} (f : DType → Arr K → List (Arr K) → Py β) (x : Arg K) (others : List (Arg K))
    (out dtype : Option DType) : Py (DType × β) :=
  (selectDtype x.kind x.type out dtype).bind fun d =>
  (asarray C x (some d)).bind fun t =>
  (others.mapM (asarray C · (some d))).bind fun os => (f d t.arr (os.map TArr.arr)).map (d, ·)

/-! ### Labelled arrays -/

/-- An argument beside a labelled array: labelled itself, or not. -/
inductive XArg (δ K : Type)
  | named (type : DType) (y : Labelled.DataArray δ K)
  | arg (a : Arg K)

section labelled

variable {δ K : Type} [Field K] [DecidableEq K] (C : Conv K)

/-- A labelled array with every number converted. -/
def mapNamed (f : K → K) (y : Labelled.DataArray δ K) : Labelled.DataArray δ K :=
  { y with data := fun i => f (y.data i) }

/-- `core/prepare.py:237-256` `xprepare_secondary_value_for_reduction` with `recast=False`, followed by the
conversion for the gufunc, which is called with type `d`. -/
def xSecondary (dtype : Option DType) (d : DType) : XArg δ K → Py (Labelled.Operand δ K)
  | .named t y => (castFn C d t).map fun g => .named (mapNamed g y)
  | .arg a => (asarrayMaybeRecast C a dtype false).bind fun t => (gufuncCast C d t).map .plain

/-- The `DataArray` branches of the functions of `valsCall`, for a first array `x` of type `t`. -/
def valsCallX {β : Type*} (f : DType → Labelled.DataArray δ K → List (Labelled.Operand δ K) → Py β) (t : DType)
    (x : Labelled.DataArray δ K) (others : List (XArg δ K)) (out dtype : Option DType) : Py (DType × β) :=
  (selectDtype .typed t out dtype).bind fun d =>
  (castFn C d t).bind fun g =>
  (others.mapM (xSecondary C (some d) d)).bind fun os => (f d (mapNamed g x) os).map (d, ·)

/-- The `Dataset` branches, for one variable `x` of type `t`: the type is selected again for every variable
(`reduction.py:296-297` and the like), `out` is ignored. -/
def valsCallVar {β : Type*} (f : DType → Labelled.DataArray δ K → List (Labelled.Operand δ K) → Py β) (t : DType)
    (x : Labelled.DataArray δ K) (others : List (XArg δ K)) (dtype : Option DType) : Py (DType × β) :=
  (selectDtypeDataset dtype).bind fun dt =>
  (selectDtype .ndarray t none dt).bind fun d =>
  (castFn C d t).bind fun g =>
  (others.mapM (xSecondary C dt d)).bind fun os => (f d (mapNamed g x) os).map (d, ·)

end labelled

/-! ### Objects -/

section objects

variable {K δ : Type} [Field K] [DecidableEq K] (C : Conv K)

/-- `wrapper/wrap_np.py:136-178` `CentralMomentsArray(obj, dtype=)`, without `fastpath`; the type is checked last,
`wrapper/wrap_abc.py:117`. -/
def constructTyped (obj : Arg K) (dtype : Option DType) (mp : Input PArray δ) (ndim : Option ℤ)
    (axes : Option IntArg) : Py (DType × Arr K × PArray) :=
  (asarray C obj dtype).bind fun t =>
  (construct t.arr mp ndim axes).bind fun c =>
  (validateFloatingDtype (some t.type)).map fun _ => (t.type, c)

/-- `wrapper/wrap_abc.py:282-288` `astype(dtype)` of an object of type `t`. NumPy takes `None` for `float64`. -/
def astypeTyped (t : DType) (obj : Arr K) (dtype : Option DType) : Py (TArr K) :=
  (validateFloatingDtype dtype).bind fun d => asarray C ⟨.ndarray, t, obj⟩ (some (d.getD .float64))

end objects

/-! ### The arithmetic that belongs to a type -/

/-- The roundings in the kernels for a type. -/
def Conv.precision (d : DType) : Precision K :=
  match d with
  | .float32 => ⟨C.single, C.double⟩
  | _ => ⟨C.double, C.double⟩

/-- The kernels for a type, for given sizes of the moment dimension. -/
def typedFamily1 (d : DType) (sizes : List ℕ) : Kernel K K (Mom K) := (C.precision d).kernel1 (sizes.headD 0 - 1)

/-- Two moment dimensions. -/
def typedFamily2 (d : DType) (sizes : List ℕ) : Kernel K (K × K) (Com K) :=
  (C.precision d).kernel2 (sizes.headD 0 - 1) (sizes.tail.headD 0 - 1)

/-- `reduce_vals`, one value per sample. -/
def reduceVals1 (mom : List ℕ) (momAxes : List ℤ) (axis : AxisArg) (x weight : Arg K) (out dtype : Option DType) :
    Py (DType × Arr (Option K)) :=
  valsCall C (fun d a os => reduceValsNd value1 core1 (typedFamily1 C d) mom momAxes a os axis) x [weight] out dtype

/-- `reduce_vals`, two values per sample. -/
def reduceVals2 (mom : List ℕ) (momAxes : List ℤ) (axis : AxisArg) (x weight y : Arg K) (out dtype : Option DType) :
    Py (DType × Arr (Option K)) :=
  valsCall C (fun d a os => reduceValsNd value2 core2 (typedFamily2 C d) mom momAxes a os axis) x [weight, y] out dtype

/-- `push_vals`, one value per sample, into an object of type `d` and contents `obj`. -/
def pushVals1 (d : DType) (obj : Arr (Option K)) (axis : AxisArg) (x weight : Arg K) : Py (Arr (Option K)) :=
  pushValsCall C (fun d a os => match os with
    | w :: ys => pushValsNd value1 core1 (typedFamily1 C d) obj a w ys axis
    | [] => .error .valueError) d x [weight]

end Cmomy.DTypes
