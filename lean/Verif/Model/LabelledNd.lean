import Verif.Model.Labelled
import Verif.Model.AxisOps

/-!
# Operations on labelled arrays of moments

The `DataArray` branches of `reduce_data`, `cumulative`, `moments_type`, `resample_data`,
`jackknife_data`, `reduce_data_grouped`, `reduce_data_indexed`, `rolling_data` and
`rolling_exp_data`, for `out=None`, and the selection of a dimension by name or by number. xarray
itself is not part of the repository: `apply_ufunc` is modelled by its contract on dimension names
and sizes (`unified_dim_sizes`, `broadcast_compat_data` and the checks on the result in
`xarray/computation`). Coordinates, attributes, data types, dask and `Dataset` are not modelled,
except where a `Dataset` is refused. `δ` is the type of dimension names.
-/

namespace Cmomy.Labelled

open Axes

variable {δ : Type} [DecidableEq δ] {α β : Type}

/-- A `DataArray`: dimension names, the entry at every multi-index, and `sizes`. -/
structure DataArray (δ α : Type) extends Arr δ α where
  size : δ → ℕ

/-- `x.values`. -/
def DataArray.values (x : DataArray δ α) : Nd.Arr α where
  shape := x.dims.map x.size
  get i := x.data ((List.range x.dims.length).map i)

/-- `DataArray(a, dims=dims)` for an array with as many axes as there are names. -/
def DataArray.ofNd (dims : List δ) (a : Nd.Arr α) : DataArray δ α where
  dims := dims
  data idx := a.get (fun p => idx.getD p 0)
  size d := a.shape.getD (dims.idxOf d) 0

/-- A step that only looks at dimension names and moves entries; transposing keeps `sizes`. -/
def DataArray.step (x : DataArray δ α) (f : Arr δ α → Py (Arr δ α)) : Py (DataArray δ α) :=
  (f x.toArr).map (fun y => { y with size := x.size })

/-- Contract of `x.rename({old: new})` for a dimension `old`. Nothing is claimed when another
dimension is called `new` already. -/
def DataArray.rename (x : DataArray δ α) (old new : δ) : Py (DataArray δ α) :=
  if old ∉ x.dims then .error .valueError
  else if new = old then .ok x
  else if new ∈ x.dims then .error .undefined
  else .ok { dims := x.dims.map (fun d => if d = old then new else d), data := x.data,
             size := fun d => if d = new then x.size old else x.size d }

/-! ## Choosing a dimension -/

/-- `core/validate.py:165-175` `validate_not_none`, for an argument that may be missing (`none`) or
`None` (`some none`). -/
def notNone (a : Option (Option α)) : Py (Option α) :=
  match a with
  | none => .ok none
  | some none => .error .typeError
  | some (some v) => .ok (some v)

/-- `core/moment_params.py:497-519` `_axis_dim_defaults`. -/
def axisDimDefaults (axis defaultAxis : Option α) (dim defaultDim : Option β) :
    Py (Option α × Option β) :=
  match axis, dim with
  | none, none =>
    match defaultAxis, defaultDim with
    | some a, none => .ok (some a, none)
    | none, some d => .ok (none, some d)
    | _, _ => .error .valueError
  | some _, some _ => .error .valueError
  | a, d => .ok (a, d)

/-- `core/moment_params.py:521-571` `select_axis_dim`, for a `DataArray` with dimensions `dims`
and moment dimensions `moms`. A name that is no dimension is a `ValueError` of `get_axis_num`. -/
def selectAxisDim (dims moms : List δ) (axis : Option (Option AxisArg)) (dim : Option (Option δ))
    (defaultAxis : Option (Option AxisArg)) (defaultDim : Option (Option δ)) (allowMom : Bool) :
    Py (ℕ × δ) :=
  (notNone axis).bind fun axis =>
  (notNone dim).bind fun dim =>
  (notNone defaultAxis).bind fun defaultAxis =>
  (notNone defaultDim).bind fun defaultDim =>
  (axisDimDefaults axis defaultAxis dim defaultDim).bind fun ad =>
  (match ad.2, ad.1 with
    | some d, _ => if d ∈ dims then .ok (dims.idxOf d, d) else .error .valueError
    | none, some a =>
      (normalizeAxisIndex a dims.length (some moms.length)).bind fun ax =>
        match dims[ax]? with
        | some d => .ok (ax, d)
        | none => .error .indexError
    | none, none => .error .typeError : Py (ℕ × δ)).bind fun r =>
  if allowMom = false ∧ r.2 ∈ moms then .error .valueError else .ok r

/-- `core/moment_params.py:534-543` `select_axis_dim` for a `Dataset`. -/
def selectAxisDimDataset (moms : List δ) (axis : Option (Option AxisArg)) (dim : Option (Option δ))
    (allowMom : Bool) : Py (ℕ × δ) :=
  (notNone axis).bind fun axis =>
  (notNone dim).bind fun dim =>
  match axis, dim with
  | none, some d => if allowMom = false ∧ d ∈ moms then .error .valueError else .ok (0, d)
  | _, _ => .error .valueError

/-- `core/moment_params.py:573-631` `select_axis_dim_mult`, for a `DataArray`, without defaults;
`dim = some none` is `dim=None`, a single name is a list with one name. -/
def selectAxisDimMult (dims moms : List δ) (axis : Option AxesArg) (dim : Option (Option (List δ))) :
    Py (List ℕ × List δ) :=
  (axisDimDefaults axis none dim none).bind fun ad =>
  (match ad.2, ad.1 with
    | some d, _ =>
      let ds := d.getD (dims.filter (fun e => decide (e ∉ moms)))
      if ∀ e ∈ ds, e ∈ dims then .ok (ds.map dims.idxOf, ds) else .error .valueError
    | none, some a =>
      (normalizeAxisTuple a dims.length (some moms.length) false).bind fun axs =>
        .ok (axs, axs.filterMap (fun ax => dims[ax]?))
    | none, none => .error .typeError : Py (List ℕ × List δ)).bind fun r =>
  if ∃ d ∈ r.2, d ∈ moms then .error .valueError else .ok r

/-! ## `apply_ufunc` -/

/-- Dimension names and sizes of an input. -/
abbrev Frame (δ : Type) := List δ × (δ → ℕ)

/-- Names and sizes of a labelled array. -/
def DataArray.frame (x : DataArray δ α) : Frame δ := (x.dims, x.size)

/-- Names in order of first appearance. -/
def firstNames (l : List δ) : List δ := l.reverse.dedup.reverse

/-- Contract of `unified_dim_sizes(inputs, exclude_dims)`: repeated names within an input, and
different sizes of the same name, are refused. -/
def unifiedDims (inputs : List (Frame δ)) (exclude : List δ) : Py (List δ) :=
  if ¬ ∀ f ∈ inputs, f.1.Nodup then .error .valueError
  else if ¬ ∀ f ∈ inputs, ∀ g ∈ inputs, ∀ d ∈ f.1, d ∈ g.1 → d ∉ exclude → f.2 d = g.2 d then
    .error .valueError
  else .ok (firstNames ((inputs.flatMap Prod.fst).filter (fun d => decide (d ∉ exclude))))

/-- `a[key]` with a new axis of size one wherever `key` is `none`, existing axes otherwise. -/
def newAxes (a : Nd.Arr α) (key : List Bool) : Nd.Arr α where
  shape := (List.range key.length).map (fun p =>
    if key.getD p false then a.shape.getD ((key.take p).count true) 0 else 1)
  get i := a.get (fun q => i (((List.range key.length).filter (fun p => key.getD p false)).getD q 0))

/-- Contract of `broadcast_compat_data(x, loop, core)`: the loop dimensions that `x` has come first,
in loop order, then the core dimensions; missing loop dimensions get an axis of size one, unless all
dimensions before them are missing too. Dimensions that are neither, and missing core dimensions,
are refused. -/
def compatData (x : DataArray δ α) (loop core : List δ) : Py (Nd.Arr α) :=
  if loop ++ core = x.dims then .ok x.values
  else if ∃ d ∈ x.dims, d ∉ loop ++ core then .error .valueError
  else
    let reordered := loop.filter (fun d => decide (d ∈ x.dims)) ++ core
    if (∃ d ∈ reordered, d ∉ x.dims) ∨ ¬ reordered.Nodup then .error .valueError
    else
      .ok (newAxes (x.values.transpose (reordered.map x.dims.idxOf))
        (((loop ++ core).dropWhile (fun d => decide (d ∉ x.dims))).map (fun d => decide (d ∈ x.dims))))

/-- Contract of `apply_ufunc` for what the function returned: it has to have the promised number of
dimensions, and dimensions that are not excluded keep their size. Nothing is claimed when the
promised names repeat. -/
def wrapResult (inputs : List (Frame δ)) (exclude dims : List δ) (a : Nd.Arr α) :
    Py (DataArray δ α) :=
  if a.shape.length ≠ dims.length then .error .valueError
  else if ¬ dims.Nodup then .error .undefined
  else if ∃ f ∈ inputs, ∃ d ∈ dims, d ∈ f.1 ∧ d ∉ exclude ∧ a.shape.getD (dims.idxOf d) 0 ≠ f.2 d then
    .error .valueError
  else .ok (.ofNd dims a)

/-- The loop dimensions: all but the core dimensions of any input or of the output. -/
def loopDims (inputs : List (Frame δ)) (exclude allCore : List δ) : Py (List δ) :=
  (unifiedDims inputs exclude).map (fun ds => ds.filter (fun d => decide (d ∉ allCore)))

/-- `apply_ufunc(f, x, *plain, input_core_dims=[core, ...], output_core_dims=[outCore],
exclude_dims=exclude)` with one labelled input; arrays without names are handed on as they are and
are part of `f` here, `plainCore` are the core dimensions given for them. -/
def applyUfunc (x : DataArray δ α) (core plainCore outCore exclude : List δ)
    (f : Nd.Arr α → Py (Nd.Arr β)) : Py (DataArray δ β) :=
  (loopDims [x.frame] exclude (core ++ plainCore ++ outCore)).bind fun loop =>
  (compatData x loop core).bind fun a =>
  (f a).bind fun out =>
  wrapResult [x.frame] exclude (loop ++ outCore) out

/-- The same with two labelled inputs. -/
def applyUfunc₂ {γ : Type} (x : DataArray δ α) (y : DataArray δ β) (coreX coreY outCore : List δ)
    (f : Nd.Arr α → Nd.Arr β → Py (Nd.Arr γ)) : Py (DataArray δ γ) :=
  (loopDims [x.frame, y.frame] [] (coreX ++ coreY ++ outCore)).bind fun loop =>
  (compatData x loop coreX).bind fun a =>
  (compatData y loop coreY).bind fun b =>
  (f a b).bind fun out =>
  wrapResult [x.frame, y.frame] [] (loop ++ outCore) out

/-! ## The operations -/

variable {K V M : Type} [Field K] [DecidableEq K]

/-- `-(mom_params.ndim + 1)`: the axis handed to the array functions. -/
def axisBefore (nd : ℕ) : ℤ := -((nd : ℤ) + 1)

/-- `reduction.py:434-541` `reduce_data`, `DataArray` branch. -/
def reduceX (core : Nd.Core K M) (k : Kernel K V M) (x : DataArray δ K) (moms : List δ)
    (axis : Option AxesArg) (dim : Option (Option (List δ))) (keepdims axesToEnd : Bool) :
    Py (DataArray δ (Option K)) :=
  (selectAxisDimMult x.dims moms axis dim).bind fun sd =>
  (applyUfunc x (sd.2 ++ moms) [] (if keepdims then sd.2 ++ moms else moms) sd.2 (fun a =>
    Nd.reduceNd core k a (Nd.axesLast core.nd)
      (.many ((List.range sd.2.length).map (fun j : ℕ =>
        .int (-(sd.2.length : ℤ) - core.nd + j)))) keepdims false)).bind fun y =>
  y.step (fun z => reduceDataDims z x.dims sd.2 moms keepdims axesToEnd)

/-- `convert.py:422-477` `cumulative`, `DataArray` branch. -/
def cumulativeX (core : Nd.Core K M) (k : Kernel K V M) (inverse : Bool) (x : DataArray δ K)
    (moms : List δ) (axis : Option (Option AxisArg)) (dim : Option (Option δ)) (axesToEnd : Bool) :
    Py (DataArray δ (Option K)) :=
  (selectAxisDim x.dims moms axis dim none none false).bind fun sd =>
  (applyUfunc x (sd.2 :: moms) [] (sd.2 :: moms) [] (fun a =>
    Nd.cumulativeInner core k inverse a (axisBefore core.nd) (Nd.axesLast core.nd))).bind fun y =>
  y.step (fun z => sameDims z x.dims sd.2 moms axesToEnd false)

/-- `resample/resample.py:218-271` `resample_data`, `DataArray` branch, for a table `freq` without
names. -/
def resampleX (core : Nd.Core K M) (k : Kernel K V M) (freq : List (List K)) (nsamp : ℕ)
    (x : DataArray δ K) (moms : List δ) (axis : Option (Option AxisArg)) (dim : Option (Option δ))
    (rep : δ) (axesToEnd : Bool) : Py (DataArray δ (Option K)) :=
  (selectAxisDim x.dims moms axis dim none none false).bind fun sd =>
  (applyUfunc x (sd.2 :: moms) [rep, sd.2] (rep :: moms) [] (fun a =>
    Nd.resampleInner core k freq nsamp a (axisBefore core.nd) (Nd.axesLast core.nd))).bind fun y =>
  y.step (fun z => resampleDataDims z x.dims sd.2 rep sd.1 moms axesToEnd false)

/-- `reduction.py:964-1024` `reduce_data_grouped`, `DataArray` branch; `groupDim` is the new name,
if any. -/
def groupedX (core : Nd.Core K M) (k : Kernel K V M) (by_ : List ℤ) (x : DataArray δ K)
    (moms : List δ) (axis : Option (Option AxisArg)) (dim : Option (Option δ))
    (groupDim : Option δ) (axesToEnd : Bool) : Py (DataArray δ (Option K)) :=
  (selectAxisDim x.dims moms axis dim none none false).bind fun sd =>
  (applyUfunc x (sd.2 :: moms) [sd.2] (sd.2 :: moms) [sd.2] (fun a =>
    Nd.groupedInner core k by_ a (axisBefore core.nd) (Nd.axesLast core.nd))).bind fun y =>
  (y.step (fun z => sameDims z x.dims sd.2 moms axesToEnd false)).bind fun z =>
  match groupDim with
  | none => .ok z
  | some g => z.rename sd.2 g

/-- `reduction.py:1382-1467` `reduce_data_indexed`, `DataArray` branch. -/
def indexedX (core : Nd.Core K M) (k : Kernel K V M) (index start stop : List ℤ)
    (scale : Option (List K)) (x : DataArray δ K) (moms : List δ)
    (axis : Option (Option AxisArg)) (dim : Option (Option δ)) (groupDim : Option δ)
    (axesToEnd : Bool) : Py (DataArray δ (Option K)) :=
  (selectAxisDim x.dims moms axis dim none none false).bind fun sd =>
  (Indexed.validateIndex (x.size sd.2) index start stop).bind fun _ =>
  (applyUfunc x (sd.2 :: moms) [] (sd.2 :: moms) [sd.2] (fun a =>
    Nd.indexedInner core k index start stop scale a (axisBefore core.nd)
      (Nd.axesLast core.nd))).bind fun y =>
  (y.step (fun z => sameDims z x.dims sd.2 moms axesToEnd false)).bind fun z =>
  match groupDim with
  | none => .ok z
  | some g => z.rename sd.2 g

/-- One axis argument among several. -/
def oneAxis (axis : Option (Option AxisArg)) : Option AxesArg :=
  axis.map (fun a => match a with
    | none => .all
    | some a => .one a)

/-- One name among several. -/
def oneDim (dim : Option (Option δ)) : Option (Option (List δ)) := dim.map (fun d => d.map (fun e => [e]))

/-- `resample/resample.py:787-869` `jackknife_data`, `DataArray` branch, with `data_reduced=None`;
`rep` is the new name, if any. -/
def jackknifeX (core : Nd.Core K M) (k : Kernel K V M) (x : DataArray δ K) (moms : List δ)
    (axis : Option (Option AxisArg)) (dim : Option (Option δ)) (rep : Option δ) (axesToEnd : Bool) :
    Py (DataArray δ (Option K)) :=
  (reduceX core k x moms (oneAxis axis) (oneDim dim) false true).bind fun reduced =>
  (selectAxisDim x.dims moms axis dim none none false).bind fun sd =>
  (applyUfunc₂ x reduced (sd.2 :: moms) moms (sd.2 :: moms) (fun a r =>
    Nd.jackknifeReducedNd core k r none a (axisBefore core.nd) (Nd.axesLast core.nd))).bind fun y =>
  (y.step (fun z => sameDims z x.dims sd.2 moms axesToEnd false)).bind fun z =>
  match rep with
  | none => .ok z
  | some g => z.rename sd.2 g

/-- `convert.py:215-254` `moments_type`, `DataArray` branch. -/
def momentsTypeX (core : Nd.Core K M) (conv : M → M) (orderCF : Bool) (x : DataArray δ K)
    (moms : List δ) (axesToEnd : Bool) : Py (DataArray δ K) :=
  (applyUfunc x moms [] moms [] (fun a =>
    Nd.momentsTypeNd core conv orderCF a (Nd.axesLast core.nd) false)).bind fun y =>
  if axesToEnd then .ok y else y.step (fun z => transposeLike z x.dims [] [] [none] [])

section Ordered

variable {K V M : Type} [Field K] [LinearOrder K] [IsStrictOrderedRing K]

/-- `rolling.py:427-480` `rolling_data`, `DataArray` branch. -/
def rollingX (core : Nd.Core K M) (k : Kernel K V M) (window : ℕ) (minPeriods : Option ℤ)
    (center zeroMissing : Bool) (x : DataArray δ K) (moms : List δ)
    (axis : Option (Option AxisArg)) (dim : Option (Option δ)) (axesToEnd : Bool) :
    Py (DataArray δ (Option K)) :=
  (selectAxisDim x.dims moms axis dim none none false).bind fun sd =>
  (applyUfunc x (sd.2 :: moms) [] (sd.2 :: moms) [] (fun a =>
    Nd.rollingInner core k window minPeriods center zeroMissing a (axisBefore core.nd)
      (Nd.axesLast core.nd))).bind fun y =>
  y.step (fun z => sameDims z x.dims sd.2 moms axesToEnd false)

/-- `rolling.py:978-1045` `rolling_exp_data`, `DataArray` branch, with a labelled `alpha`. -/
def rollingExpX (core : Nd.Core K M) (k : Kernel K V M) (alpha : DataArray δ K)
    (adjust : Bool) (minPeriods : Option ℤ) (zeroMissing : Bool) (x : DataArray δ K)
    (moms : List δ) (axis : Option (Option AxisArg)) (dim : Option (Option δ)) (axesToEnd : Bool) :
    Py (DataArray δ (Option K)) :=
  (selectAxisDim x.dims moms axis dim none none false).bind fun sd =>
  (applyUfunc₂ x alpha (sd.2 :: moms) [sd.2] (sd.2 :: moms) (fun a al =>
    Nd.rollingExpInner core k al (-1) adjust minPeriods zeroMissing a (axisBefore core.nd)
      (Nd.axesLast core.nd))).bind fun y =>
  y.step (fun z => sameDims z x.dims sd.2 moms axesToEnd false)

/-- The same with one number `alpha` for all samples, or one per sample
(`rolling.py:1087-1108`). -/
def rollingExpPlainX (core : Nd.Core K M) (k : Kernel K V M) (alpha : K ⊕ List K)
    (adjust : Bool) (minPeriods : Option ℤ) (zeroMissing : Bool) (x : DataArray δ K)
    (moms : List δ) (axis : Option (Option AxisArg)) (dim : Option (Option δ)) (axesToEnd : Bool) :
    Py (DataArray δ (Option K)) :=
  (selectAxisDim x.dims moms axis dim none none false).bind fun sd =>
  (applyUfunc x (sd.2 :: moms) [sd.2] (sd.2 :: moms) [] (fun a =>
    Nd.rollingExpInner core k
      (match alpha with
        | .inl al => ⟨[x.size sd.2], fun _ => al⟩
        | .inr l => ⟨[l.length], fun i => l.getD (i 0) 0⟩)
      (-1) adjust minPeriods zeroMissing a (axisBefore core.nd) (Nd.axesLast core.nd))).bind fun y =>
  y.step (fun z => sameDims z x.dims sd.2 moms axesToEnd false)

end Ordered

end Cmomy.Labelled
