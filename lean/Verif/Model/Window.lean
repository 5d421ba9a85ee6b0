import Verif.Model.LabelledMake

/-!
# Arrays of rolling windows

`construct_rolling_window_array` (`rolling.py:157-294`) for a `DataArray` and for an array, with
`core/moment_params.py:634-649`. What xarray does in `x.rolling(...).construct(...)` (`Rolling.__init__`,
`DataArrayRolling.construct`, `Variable.rolling_window`) is stated by contract. Extra arguments of
`rolling`, coordinates, attributes, data types, dask and `Dataset` are not modelled.
-/

namespace Cmomy.Labelled

open Axes Validate

variable {δ : Type} [DecidableEq δ] {α : Type}

/-! ## Moment parameters that may be missing -/

/-- `core/moment_params.py:639-649` `MomParamsXArrayOptional.from_params` -/
def fromParamsOptional (mom0 mom1 : δ) (ndim : Option ℤ) (dims : Option (DimsArg δ))
    (axes : Option IntArg) (data : OutDims δ) : Py (Option (PX δ)) :=
  if ndim = none ∧ dims.isNone ∧ axes.isNone then .ok none
  else (fromParamsX mom0 mom1 ndim dims axes data none).map some

/-- `core/moment_params.py:400-432` `MomParamsXArrayOptional.factory`. A `MomParamsXArray` is no
`MomParamsXArrayOptional`, so its entries are used like those of a dictionary. -/
def factoryOptional (mom0 mom1 : δ) (mp : Input (PX δ) (DimsArg δ)) (ndim : Option ℤ)
    (dims : Option (DimsArg δ)) (axes : Option IntArg) (data : OutDims δ) : Py (Option (PX δ)) :=
  match mp with
  | .absent => fromParamsOptional mom0 mom1 ndim dims axes data
  | .obj p => fromParamsOptional mom0 mom1 (some (ndim.getD p.ndim)) (some (.seq p.dims)) axes data
  | .dict n a d =>
    fromParamsOptional mom0 mom1 (if ndim.isSome then ndim else n.getD none) (d.getD dims) (a.getD axes)
      data

/-- `core/moment_params.py:573-631` `select_axis_dim_mult`, also without moment dimensions. -/
def selectOptional (dims : List δ) (p : Option (PX δ)) (axis : Option AxesArg)
    (dim : Option (Option (List δ))) : Py (List ℕ × List δ) :=
  match p with
  | some p => selectAxisDimMult dims p.dims axis dim
  | none =>
    (axisDimDefaults axis none dim none).bind fun ad =>
    match ad.2, ad.1 with
    | some d, _ =>
      let ds := d.getD dims
      if ∀ e ∈ ds, e ∈ dims then .ok (ds.map dims.idxOf, ds) else .error .valueError
    | none, some a =>
      (normalizeAxisTuple a dims.length none false).bind fun axs =>
        .ok (axs, axs.filterMap (fun ax => dims[ax]?))
    | none, none => .error .typeError

/-! ## What xarray does -/

/-- What is asked for along one dimension. -/
structure Roll (δ : Type) where
  dim : δ
  name : δ
  window : ℤ
  center : Bool
  stride : ℤ
deriving DecidableEq

/-- `Variable.rolling_window`: how much is added before and after. -/
def Roll.pads (r : Roll δ) : ℕ × ℕ :=
  let win := r.window.toNat
  if r.center then (win / 2, win - 1 - win / 2) else (win - 1, 0)

/-- The first request for a dimension. -/
def rollFor (rs : List (Roll δ)) (d : δ) : Option (Roll δ) := rs.find? (fun r => decide (r.dim = d))

/-- Contract of `Variable.pad(pads, mode="constant", constant_values=fill)`. -/
def DataArray.padRolls (x : DataArray δ α) (rs : List (Roll δ)) (fill : α) : DataArray δ α where
  dims := x.dims
  data idx :=
    let at' := fun d => idx.getD (x.dims.idxOf d) 0
    if ∀ r ∈ rs, r.pads.1 ≤ at' r.dim ∧ at' r.dim < r.pads.1 + x.size r.dim then
      x.data (x.dims.map (fun d => at' d - ((rollFor rs d).map (fun r => r.pads.1)).getD 0))
    else fill
  size d := ((rollFor rs d).map (fun r => r.pads.1 + x.size d + r.pads.2)).getD (x.size d)

/-- Contract of numpy's `sliding_window_view`, with the names of the new dimensions: these come last. A
window larger than the array is refused. -/
def DataArray.slidingWindows (x : DataArray δ α) (rs : List (Roll δ)) : Py (DataArray δ α) :=
  if ∃ r ∈ rs, x.size r.dim < r.window.toNat then .error .valueError
  else
    let dims := x.dims ++ rs.map Roll.name
    .ok { dims := dims
          data := fun idx => x.data (x.dims.map (fun d => idx.getD (dims.idxOf d) 0 +
            ((rollFor rs d).map (fun r => idx.getD (dims.idxOf r.name) 0)).getD 0))
          size := fun d =>
            match rs.find? (fun r => decide (r.name = d)) with
            | some r => r.window.toNat
            | none => ((rollFor rs d).map (fun r => x.size d + 1 - r.window.toNat)).getD (x.size d) }

/-- Contract of `x.rolling(windows, center).construct(window_dim, stride, fill_value)`. Nothing is claimed
when there is nothing to roll, when a dimension or a new name is given twice, or when a new name is in
use. -/
def rollingConstruct (x : DataArray δ α) (rs : List (Roll δ)) (fill : α) : Py (DataArray δ α) :=
  if rs = [] ∨ ¬ (rs.map Roll.dim).Nodup ∨ ¬ (rs.map Roll.name).Nodup ∨ ∃ r ∈ rs, r.name ∈ x.dims then
    .error .undefined
  else if ∃ r ∈ rs, r.window ≤ 0 then .error .valueError
  else ((x.padRolls rs fill).slidingWindows rs).bind fun y =>
    y.isel (rs.map (fun r => (r.dim, .slice none none (some r.stride))))

/-! ## The function -/

/-- An argument that is one value for all dimensions, or a sequence with one for each. -/
inductive PerDim (β : Type)
  | one (v : β)
  | many (l : List β)
deriving DecidableEq

/-- `rolling.py:247-249` -/
def PerDim.spread {β : Type} (n : ℕ) : PerDim β → List β
  | .one v => List.replicate n v
  | .many l => l

/-- `rolling.py:265-270` `dict(zip(dim, ...))` -/
def zipRolls : List δ → List δ → List ℤ → List Bool → List ℤ → List (Roll δ)
  | d :: ds, n :: ns, w :: ws, c :: cs, s :: ss => ⟨d, n, w, c, s⟩ :: zipRolls ds ns ws cs ss
  | _, _, _, _, _ => []

/-- `rolling.py:236-278` `construct_rolling_window_array`, `DataArray` branch. `roll` makes the default name
`rolling_{d}` from `d`; a single `window_dim` is a list with one name. -/
def windowArrayX (mom0 mom1 : δ) (roll : δ → δ) (x : DataArray δ α) (window : PerDim ℤ)
    (axis : Option AxesArg) (dim : Option (Option (List δ))) (center : PerDim Bool) (stride : PerDim ℤ)
    (fill : α) (mp : Input (PX δ) (DimsArg δ)) (ndim : Option ℤ) (axes : Option IntArg)
    (dims : Option (DimsArg δ)) (names : Option (List δ)) : Py (DataArray δ α) :=
  (factoryOptional mom0 mom1 mp ndim dims axes (some x.dims)).bind fun p =>
  (selectOptional x.dims p axis dim).bind fun sd =>
  let n := sd.2.length
  let window := window.spread n
  let center := center.spread n
  let stride := stride.spread n
  let names := names.getD (sd.2.map roll)
  if window.length ≠ n ∨ center.length ≠ n ∨ stride.length ≠ n ∨ names.length ≠ n then .error .valueError
  else
    (rollingConstruct x (zipRolls sd.2 names window center stride) fill).bind fun y =>
    y.transposeStrict (names.map some ++ [none])

/-- The names `dim_0`, `dim_1`, ... that xarray gives, `rolling_dim_0`, ... made from them, and `mom_0`,
`mom_1`. -/
inductive AutoName
  | dim (i : ℕ)
  | rolling (i : ℕ)
  | mom (i : ℕ)
deriving DecidableEq

/-- `f"rolling_{d}"` -/
def AutoName.roll : AutoName → AutoName
  | .dim i => .rolling i
  | d => d

/-- `rolling.py:280-290` `construct_rolling_window_array`, array branch. `mom_params` is not passed on. -/
def windowArray (x : Nd.Arr α) (window : PerDim ℤ) (axis : Option AxesArg) (center : PerDim Bool)
    (stride : PerDim ℤ) (fill : α) (_mp : Input PArray Unit) (ndim : Option ℤ) (axes : Option IntArg) :
    Py (Nd.Arr α) :=
  (windowArrayX (.mom 0) (.mom 1) AutoName.roll
    (DataArray.ofNd ((List.range x.shape.length).map AutoName.dim) x) window axis none center stride fill
    .absent ndim axes none none).map DataArray.values

end Cmomy.Labelled
