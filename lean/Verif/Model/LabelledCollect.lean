import Verif.Model.LabelledPush

/-!
# Collecting the samples of labelled objects

`CentralMomentsData` over a `DataArray`: `reduce`, `cumulative`, `resample_and_reduce`,
`jackknife_and_reduce` and the operators `+`, `-`, `+=`, `-=`. An object is its labelled array together
with the names of its moment dimensions. The calls of `reduce_data` and the like are those of
`Model/LabelledNd.lean`; `_new_like` (`wrapper/wrap_abc.py:204-210`) takes their results as they are.
`out`, `dtype`, `casting`, `order`, coordinates, attributes, dask and `Dataset` are not modelled, nor are
labels that are not integers, nor the name of a coordinate in place of labels.
-/

namespace Cmomy.Labelled

open Axes

variable {δ : Type} [DecidableEq δ]

/-- An `axis` argument handed to `select_axis_dim`. No claim for several axes. -/
def singleAxis : Option AxesArg → Py (Option (Option AxisArg))
  | none => .ok none
  | some .all => .ok (some none)
  | some (.one a) => .ok (some (some a))
  | some (.many _) => .error .undefined

/-- A `dim` argument handed to `select_axis_dim`; a single name is a list with one name. No claim for
several names. -/
def singleDim : Option (Option (List δ)) → Py (Option (Option δ))
  | none => .ok none
  | some none => .ok (some none)
  | some (some [d]) => .ok (some (some d))
  | some (some _) => .error .undefined

/-- `resample/sampler.py:655-664` `select_ndat(data, axis, dim)` for a `DataArray`. -/
def selectNdatX {α : Type} (x : DataArray δ α) (moms : List δ) (axis : Option (Option AxisArg))
    (dim : Option (Option δ)) : Py ℕ :=
  (selectAxisDim x.dims moms axis dim none none false).map fun sd => x.size sd.2

/-- `wrapper/wrap_xr.py:764-766` with `wrapper/wrap_abc.py:1039-1058` `_block_by`: the labels for blocks of
a given length. The highest label is asked for, which an empty dimension does not have. -/
def blockLabels {α : Type} (x : DataArray δ α) (moms : List δ) (axis : Option (Option AxisArg))
    (dim : Option (Option δ)) (block : ℤ) : Py (List (Option ℤ)) :=
  (selectNdatX x moms axis dim).bind fun n =>
  (Block.blockBy n block .dropLast).bind fun by_ =>
  if by_ = [] then .error .valueError else .ok (by_.map some)

variable {K V M : Type} [Field K] [DecidableEq K]

/-- `wrapper/wrap_xr.py:788-824` The branch of `reduce` for `coords_policy` `"first"` or `"last"`;
`argsort` is `np.argsort`. -/
def reduceByIndex (core : Nd.Core K M) (k : Kernel K V M) (argsort : List ℤ → List ℕ)
    (obj : DataArray δ K) (moms : List δ) (axis : Option (Option AxisArg)) (dim : Option (Option δ))
    (by_ : List (Option ℤ)) (groupDim : Option δ) (axesToEnd : Bool) :
    Py (DataArray δ (Option K)) :=
  let t := Factor.factorByToIndex argsort false by_
  indexedX core k (t.2.1.map (fun i : ℕ => (i : ℤ))) (t.2.2.1.map (fun i : ℕ => (i : ℤ)))
    (t.2.2.2.map (fun i : ℕ => (i : ℤ))) none obj moms axis dim groupDim axesToEnd

/-- `wrapper/wrap_xr.py:825-857` The branch for any other `coords_policy`: the labels are converted to
integers (`reduction.py:965`), which `None` cannot be. -/
def reduceByCode (core : Nd.Core K M) (k : Kernel K V M)
    (obj : DataArray δ K) (moms : List δ) (axis : Option (Option AxisArg)) (dim : Option (Option δ))
    (by_ : List (Option ℤ)) (groupDim : Option δ) (axesToEnd : Bool) :
    Py (DataArray δ (Option K)) :=
  if none ∈ by_ then .error .typeError
  else groupedX core k (by_.filterMap id) obj moms axis dim groupDim axesToEnd

/-- `wrapper/wrap_xr.py:613-859` `reduce(dim, by, block, group_dim, axis, keepdims, axes_to_end,
coords_policy)` for a `DataArray`, with `use_map` and `groups` left out. `byFirst` says that the policy is
`"first"`, the default, or `"last"`. `by` goes before `block`; `axes_to_end` is used only with one of
them, `keepdims` only without both. -/
def reduceObjX (core : Nd.Core K M) (k : Kernel K V M) (argsort : List ℤ → List ℕ)
    (obj : DataArray δ K) (moms : List δ) (axis : Option AxesArg) (dim : Option (Option (List δ)))
    (by_ : Option (List (Option ℤ))) (block : Option ℤ) (byFirst : Bool) (groupDim : Option δ)
    (keepdims axesToEnd : Bool) : Py (DataArray δ (Option K)) :=
  match by_, block with
  | none, none => reduceX core k obj moms axis dim keepdims false
  | by_, block =>
    (singleAxis axis).bind fun axis =>
    (singleDim dim).bind fun dim =>
    (match by_, block with
      | some l, _ => .ok l
      | none, some b => blockLabels obj moms axis dim b
      | none, none => .ok [] : Py (List (Option ℤ))).bind fun l =>
    if byFirst then reduceByIndex core k argsort obj moms axis dim l groupDim axesToEnd
    else reduceByCode core k obj moms axis dim l groupDim axesToEnd

/-- `wrapper/wrap_abc.py:755-810` `cumulative(axis, dim, axes_to_end)`. The result is an array. -/
def cumulativeObjX (core : Nd.Core K M) (k : Kernel K V M) (obj : DataArray δ K) (moms : List δ)
    (axis : Option (Option AxisArg)) (dim : Option (Option δ)) (axesToEnd : Bool) :
    Py (DataArray δ (Option K)) :=
  cumulativeX core k false obj moms axis dim axesToEnd

/-- `wrapper/wrap_abc.py:866-965` `resample_and_reduce(sampler, axis, dim, rep_dim, axes_to_end)` with the
frequency table of the sampler. -/
def resampleAndReduceX (core : Nd.Core K M) (k : Kernel K V M) (obj : DataArray δ K) (moms : List δ)
    (freq : List (List K)) (nsamp : ℕ) (axis : Option (Option AxisArg)) (dim : Option (Option δ))
    (rep : δ) (axesToEnd : Bool) : Py (DataArray δ (Option K)) :=
  resampleX core k freq nsamp obj moms axis dim rep axesToEnd

/-- `wrapper/wrap_abc.py:968-1036` `jackknife_and_reduce(axis, dim, rep_dim, axes_to_end)` for
`data_reduced=None`. -/
def jackknifeAndReduceX (core : Nd.Core K M) (k : Kernel K V M) (obj : DataArray δ K) (moms : List δ)
    (axis : Option (Option AxisArg)) (dim : Option (Option δ)) (rep : Option δ) (axesToEnd : Bool) :
    Py (DataArray δ (Option K)) :=
  jackknifeX core k obj moms axis dim rep axesToEnd

/-- An array none of whose entries is missing. -/
def DataArray.whole (x : DataArray δ K) : DataArray δ (Option K) :=
  { dims := x.dims, data := fun idx => some (x.data idx), size := x.size }

/-- `wrapper/wrap_abc.py:487-492` `_check_other`, for an object of the same class: its moments have to
have the same shape. -/
def checkOtherX (obj : DataArray δ K) (moms : List δ) (other : DataArray δ K) (moms' : List δ) :
    Py Unit :=
  if moms'.map other.size ≠ moms.map obj.size then .error .valueError else .ok ()

/-- `wrapper/wrap_abc.py:494-512` `+`, `+=` (`minus = false`) and `-`, `-=`: a copy of the object, or the
object itself, takes what the other one has. -/
def addX (core : Nd.Core K M) (fam : List ℕ → Kernel K V M) (minus : Bool) (obj : DataArray δ K)
    (moms : List δ) (other : DataArray δ K) (moms' : List δ) : Py (DataArray δ (Option K)) :=
  (checkOtherX obj moms other moms').bind fun _ =>
  pushDataX core fam moms obj.whole (.named other)
    (if minus then some ⟨[], fun _ => -1⟩ else none)

end Cmomy.Labelled
