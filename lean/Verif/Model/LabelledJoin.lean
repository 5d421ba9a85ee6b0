import Verif.Model.LabelledObject
import Verif.Model.ObjectOps

/-!
# Moving dimensions of labelled objects, and joining them

`utils.moveaxis` and `convert.concat` for `DataArray`s and for `CentralMomentsData` over a `DataArray`.
What xarray does is stated by contract. Coordinates, attributes, data types, dask, `Dataset` and the further
arguments of `xr.concat` are not modelled.
-/

namespace Cmomy.Labelled

open Axes ObjectIndex

variable {δ : Type} [DecidableEq δ] {α : Type}

/-! ## `moveaxis` -/

/-- `core/moment_params.py:573-631` `select_axis_dim_mult`, for a `DataArray`, without defaults, with
`allow_select_mom_axes`. -/
def selectAxesDims (dims moms : List δ) (axis : Option AxesArg) (dim : Option (Option (List δ)))
    (allowMom : Bool) : Py (List ℕ × List δ) :=
  (axisDimDefaults axis none dim none).bind fun ad =>
  (match ad.2, ad.1 with
    | some d, _ =>
      let ds := d.getD (dims.filter (fun e => decide (e ∉ moms)))
      if ∀ e ∈ ds, e ∈ dims then .ok (ds.map dims.idxOf, ds) else .error .valueError
    | none, some a =>
      (normalizeAxisTuple a dims.length (some moms.length) false).bind fun axs =>
        .ok (axs, axs.filterMap (fun ax => dims[ax]?))
    | none, none => .error .typeError : Py (List ℕ × List δ)).bind fun r =>
  if allowMom = false ∧ ∃ d ∈ r.2, d ∈ moms then .error .valueError else .ok r

/-- `utils.py:120-129` `moveaxis_order`, `DataArray` branch, without `axes_to_end`. -/
def moveOrderPlainX (dims moms : List δ) (axis dest : Option AxesArg)
    (dim destDim : Option (Option (List δ))) (allowMom : Bool) : Py (List ℕ) :=
  (selectAxesDims dims moms axis dim allowMom).bind fun s =>
  (selectAxesDims dims moms dest destDim allowMom).bind fun t =>
  moveaxisCore dims.length s.1 t.1

/-- `utils.py:90-129` `moveaxis_order`, `DataArray` branch, the moment dimensions known. With
`axes_to_end`, `dest` and `dest_dim` are not looked at. -/
def moveOrderX (dims moms : List δ) (axis dest : Option AxesArg)
    (dim destDim : Option (Option (List δ))) (allowMom axesToEnd : Bool) : Py (List ℕ) :=
  if axesToEnd then
    Except.bind (if axis.isSome ∨ dim.isSome then (selectAxesDims dims moms axis dim false).map Prod.fst
      else .ok []) fun axs : List ℕ =>
    let ends := (List.range axs.length).map (fun j : ℕ => AxisArg.complex 0 (-(axs.length : ℚ) + j))
    moveOrderPlainX dims moms
      (some (.many ((axs ++ moms.map dims.idxOf).map (fun a : ℕ => .int a))))
      (some (.many (ends ++ (Select.axesLast moms.length).map .int))) none none true
  else moveOrderPlainX dims moms axis dest dim destDim allowMom

/-- `utils.py:292-308` `moveaxis`, `DataArray` branch. -/
def moveaxisMomX (x : DataArray δ α) (moms : List δ) (axis dest : Option AxesArg)
    (dim destDim : Option (Option (List δ))) (allowMom axesToEnd : Bool) : Py (DataArray δ α) :=
  (moveOrderX x.dims moms axis dest dim destDim allowMom axesToEnd).bind fun order =>
  x.transposeStrict (order.map (fun o => x.dims[o]?))

/-- `wrapper/wrap_abc.py:596-644` `moveaxis(axis, dest, dim, dest_dim, axes_to_end)` -/
def moveaxisX (moms : List δ) (obj : DataArray δ α) (axis dest : Option AxesArg)
    (dim destDim : Option (Option (List δ))) (axesToEnd : Bool) : Py (DataArray δ α) :=
  (moveaxisMomX obj moms axis dest dim destDim false axesToEnd).bind (newLikeX moms obj)

/-! ## `concat` -/

/-- Contract of `xr.concat(arrays, dim)`: the others are transposed to the dimensions of the first one; a
new dimension comes first. Sizes that differ along another dimension are a `ValueError`. Nothing is
claimed for arrays with other dimensions than the first one. -/
def xrConcat (arrays : List (DataArray δ α)) (dim : δ) : Py (DataArray δ α) :=
  match arrays with
  | [] => .error .undefined
  | a :: _ =>
    if ∃ b ∈ arrays, ¬ b.dims.Nodup ∨ ¬ b.dims.Perm a.dims then .error .undefined
    else if ∃ b ∈ arrays, ∃ d ∈ a.dims, d ≠ dim ∧ b.size d ≠ a.size d then .error .valueError
    else
      let dims := if dim ∈ a.dims then a.dims else dim :: a.dims
      let sizes := arrays.map (fun b => if dim ∈ a.dims then b.size dim else 1)
      .ok { dims := dims
            data := fun idx =>
              let p := findPart sizes (idx.getD (dims.idxOf dim) 0)
              let b := arrays.getD p.1 a
              b.data (b.dims.map (fun d => if d = dim then p.2 else idx.getD (dims.idxOf d) 0))
            size := fun d => if d = dim then sizes.sum else a.size d }

/-- `convert.py:1061-1068` `concat(arrays, axis, dim)` for `DataArray`s. A name that is no dimension is
taken for a new one, and `axis` is not looked at then. No moment dimensions are known. -/
def concatX (arrays : List (DataArray δ α)) (axis : Option (Option AxisArg)) (dim : Option (Option δ)) :
    Py (DataArray δ α) :=
  match arrays with
  | [] => .error .undefined
  | a :: _ =>
    match dim with
    | some (some d) =>
      if d ∈ a.dims then
        (selectAxisDim a.dims [] axis dim (some (some (.int 0))) none false).bind fun r =>
          xrConcat arrays r.2
      else xrConcat arrays d
    | _ => (selectAxisDim a.dims [] axis dim (some (some (.int 0))) none false).bind fun r =>
        xrConcat arrays r.2

/-- `convert.py:1071-1079` `concat(objects, axis, dim)` for objects: made anew with the number of moment
dimensions of the first one, `wrapper/wrap_xr.py:110-130`, so that the last dimensions are taken for the
moment dimensions, `core/validate.py:234-236`. An object is its array with the names of its moment dimensions. -/
def concatObjectsX (objs : List (DataArray δ α × List δ)) (axis : Option (Option AxisArg))
    (dim : Option (Option δ)) : Py (DataArray δ α × List δ) :=
  match objs with
  | [] => .error .undefined
  | c :: _ => (concatX (objs.map Prod.fst) axis dim).bind fun out =>
    (constructX (out.dims.drop (out.dims.length - c.2.length)) out).map
      (·, out.dims.drop (out.dims.length - c.2.length))

end Cmomy.Labelled
