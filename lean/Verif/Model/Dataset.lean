import Verif.Model.LabelledNd

/-!
# Operations on data sets of moments

The `Dataset` branches of `reduce_data`, `cumulative`, `moments_type`, `resample_data`,
`jackknife_data`, `reduce_data_grouped`, `reduce_data_indexed`, `rolling_data` and
`rolling_exp_data`. xarray is not part of the repository: `apply_ufunc` for a `Dataset`
(`apply_dict_of_variables_vfunc` with `on_missing_core_dim="copy"`, the default of
`core/xr_utils.py:36-62`), `Dataset.map`, `transpose` and `rename` are modelled by their contracts.
`ν` is the type of names of variables; names of variables and of dimensions are kept apart.
Coordinates, attributes, data types and dask are not modelled; for a `Dataset`, `out` is ignored.
-/

namespace Cmomy.Labelled

open Axes

variable {ν δ : Type} [DecidableEq ν] [DecidableEq δ] {α β : Type}

/-- A `Dataset`: its variables and their names. -/
abbrev Dataset (ν δ α : Type) := List (ν × DataArray δ α)

namespace Dataset

/-- Dimensions of the same name have the same size in all variables. -/
def SameSizes (ds : Dataset ν δ α) : Prop :=
  ∀ v ∈ ds, ∀ w ∈ ds, ∀ d ∈ v.2.dims, d ∈ w.2.dims → v.2.size d = w.2.size d

instance (ds : Dataset ν δ α) : Decidable ds.SameSizes := by unfold SameSizes; infer_instance

/-- Contract of making a `Dataset` of variables (`calculate_dimensions`). -/
def build (ds : Dataset ν δ α) : Py (Dataset ν δ α) :=
  if ds.SameSizes then .ok ds else .error .valueError

/-- `d in ds.dims` -/
def HasDim (ds : Dataset ν δ α) (d : δ) : Prop := ∃ v ∈ ds, d ∈ v.2.dims

instance (ds : Dataset ν δ α) (d : δ) : Decidable (ds.HasDim d) := by unfold HasDim; infer_instance

/-- `ds.dims`, in order of first appearance. -/
def dims (ds : Dataset ν δ α) : List δ := firstNames (ds.flatMap (fun v => v.2.dims))

/-- `ds.sizes[d]` -/
def sizeOf (ds : Dataset ν δ α) (d : δ) : Py ℕ :=
  match ds.find? (fun v => decide (d ∈ v.2.dims)) with
  | some v => .ok (v.2.size d)
  | none => .error .keyError

/-- Every variable replaced; names stay. -/
def mapVars (f : ν → DataArray δ α → Py (DataArray δ β)) : Dataset ν δ α → Py (Dataset ν δ β)
  | [] => .ok []
  | v :: ds => (f v.1 v.2).bind fun y => (mapVars f ds).map ((v.1, y) :: ·)

/-- `ds[name].dims` -/
def dimsOf (ds : Dataset ν δ α) (name : ν) : List δ := ((ds.lookup name).map (fun x => x.dims)).getD []

end Dataset

/-- The same array with entries of another type. -/
def DataArray.mapData (f : α → β) (x : DataArray δ α) : DataArray δ β where
  dims := x.dims
  data idx := f (x.data idx)
  size := x.size

/-- `apply_ufunc` for one `Dataset`, `core` being the core dimensions of the input and `f` the call
for one variable: variables without all core dimensions are copied. -/
def applyDataset (ds : Dataset ν δ α) (core : List δ) (lift : α → β)
    (f : ν → DataArray δ α → Py (DataArray δ β)) : Py (Dataset ν δ β) :=
  (ds.mapVars fun n x => if ∀ d ∈ core, d ∈ x.dims then f n x else .ok (x.mapData lift)).bind
    Dataset.build

/-- Contract of `ds.rename({old: new})` for a dimension. Nothing is claimed when there is a dimension
`new` already. -/
def Dataset.rename (ds : Dataset ν δ α) (old new : δ) : Py (Dataset ν δ α) :=
  if ¬ ds.HasDim old then .error .valueError
  else if new = old then .ok ds
  else if ds.HasDim new then .error .undefined
  else ds.mapVars fun _ x => if old ∈ x.dims then x.rename old new else .ok x

/-- Renaming, if there is a new name. -/
def Dataset.renameTo (ds : Dataset ν δ α) (old : δ) (new : Option δ) : Py (Dataset ν δ α) :=
  match new with
  | none => .ok ds
  | some g => ds.rename old g

/-- `rolling.py:472-480` and likewise elsewhere: the dimensions of the results are put in the order
of the variables of the data, or `dim` and the moment dimensions last. -/
def orderSame (data : Dataset ν δ β) (out : Dataset ν δ α) (dim : δ) (moms : List δ)
    (axesToEnd : Bool) : Py (Dataset ν δ α) :=
  out.mapVars fun n y => y.step (fun z => sameDims z (data.dimsOf n) dim moms axesToEnd true)

variable {K V M : Type} [Field K] [DecidableEq K]

/-- `core/moment_params.py:597-608` `select_axis_dim_mult` for a `Dataset`. -/
def selectAxisDimMultDataset (all moms : List δ) (axis : Option AxesArg)
    (dim : Option (Option (List δ))) : Py (List δ) :=
  match axis, dim with
  | none, some none => .ok (all.filter (fun d => decide (d ∉ moms)))
  | none, some (some l) => if ∃ d ∈ l, d ∈ moms then .error .valueError else .ok l
  | _, _ => .error .valueError

/-- `reduction.py:474-499` `reduce_data` with `use_map=True` for one variable: one without the moment
dimensions, or without any dimension to reduce over, is handed back. -/
def reduceMapped (core : Nd.Core K M) (k : Kernel K V M) (x : DataArray δ K) (moms : List δ)
    (dim : Option (List δ)) (keepdims axesToEnd : Bool) : Py (DataArray δ (Option K)) :=
  if ¬ ∀ d ∈ moms, d ∈ x.dims then .ok (x.mapData some)
  else
    match dim with
    | none => reduceX core k x moms none (some none) keepdims axesToEnd
    | some l =>
      let kept := l.filter (fun d => decide (d ∈ x.dims))
      if kept = [] then .ok (x.mapData some)
      else reduceX core k x moms none (some (some kept)) keepdims axesToEnd

/-- `reduction.py:434-541` `reduce_data`, `Dataset` branch. -/
def reduceDs (core : Nd.Core K M) (k : Kernel K V M) (ds : Dataset ν δ K) (moms : List δ)
    (axis : Option AxesArg) (dim : Option (Option (List δ))) (keepdims axesToEnd : Bool)
    (useMap : Option Bool) : Py (Dataset ν δ (Option K)) :=
  (match dim with
    | some none => .ok none
    | _ => (selectAxisDimMultDataset ds.dims moms axis dim).map some
      : Py (Option (List δ))).bind fun chosen =>
  if ¬ ∀ d ∈ chosen.getD [] ++ moms, ds.HasDim d then .error .valueError
  else if useMap ≠ some false ∧ (chosen.all fun l => decide (l.length > 1)) then
    (ds.mapVars fun _ x => reduceMapped core k x moms chosen keepdims axesToEnd).bind Dataset.build
  else if useMap = some true ∧ chosen = some [] then
    .ok (ds.map fun v => (v.1, v.2.mapData some))
  else
    (selectAxisDimMultDataset ds.dims moms (if chosen.isSome then none else axis)
      (some chosen)).bind fun l =>
    (applyDataset ds (l ++ moms) some (fun _ x =>
      applyUfunc x (l ++ moms) [] (if keepdims then l ++ moms else moms) l (fun a =>
        Nd.reduceNd core k a (Nd.axesLast core.nd)
          (.many ((List.range l.length).map (fun j : ℕ =>
            .int (-(l.length : ℤ) - core.nd + j)))) keepdims false))).bind fun out =>
    out.mapVars fun n y =>
      y.step (fun z => reduceDataDims z (ds.dimsOf n) l moms keepdims axesToEnd)

/-- `convert.py:422-477` `cumulative`, `Dataset` branch. -/
def cumulativeDs (core : Nd.Core K M) (k : Kernel K V M) (inverse : Bool) (ds : Dataset ν δ K)
    (moms : List δ) (axis : Option (Option AxisArg)) (dim : Option (Option δ)) (axesToEnd : Bool) :
    Py (Dataset ν δ (Option K)) :=
  (selectAxisDimDataset moms axis dim false).bind fun sd =>
  (applyDataset ds (sd.2 :: moms) some (fun _ x =>
    applyUfunc x (sd.2 :: moms) [] (sd.2 :: moms) [] (fun a =>
      Nd.cumulativeInner core k inverse a (axisBefore core.nd) (Nd.axesLast core.nd)))).bind fun out =>
  orderSame ds out sd.2 moms axesToEnd

/-- `convert.py:215-254` `moments_type`, `Dataset` branch. -/
def momentsTypeDs (core : Nd.Core K M) (conv : M → M) (orderCF : Bool) (ds : Dataset ν δ K)
    (moms : List δ) (axesToEnd : Bool) : Py (Dataset ν δ K) :=
  (applyDataset ds moms id (fun _ x => applyUfunc x moms [] moms [] (fun a =>
    Nd.momentsTypeNd core conv orderCF a (Nd.axesLast core.nd) false))).bind fun out =>
  if axesToEnd then .ok out
  else out.mapVars fun n y => y.step (fun z => transposeLike z (ds.dimsOf n) [] [] [none] [])

/-- Tables for resampling: one for all variables, or one for each. -/
inductive Tables (ν K : Type)
  | one (freq : List (List K)) (nsamp : ℕ)
  | each (tables : List (ν × List (List K) × ℕ))

/-- The table for a variable. -/
def Tables.for (t : Tables ν K) (name : ν) : List (List K) × ℕ :=
  match t with
  | .one freq nsamp => (freq, nsamp)
  | .each tables => (tables.lookup name).getD ([], 0)

/-- `dataset_join="exact"`: the same names in both. -/
def Tables.Fits (t : Tables ν K) (ds : Dataset ν δ K) : Prop :=
  match t with
  | .one _ _ => True
  | .each tables => (∀ v ∈ ds, v.1 ∈ tables.map Prod.fst) ∧ ∀ t ∈ tables, t.1 ∈ ds.map Prod.fst

instance (t : Tables ν K) (ds : Dataset ν δ K) : Decidable (t.Fits ds) := by
  unfold Tables.Fits; cases t <;> infer_instance

/-- `resample/sampler.py:592-604`: the variables that get a table of their own with `paired=False`;
`none` is one table for all. A `Dataset` in which no variable has the dimensions is not modelled. -/
def tableNames (ds : Dataset ν δ K) (dim : δ) (moms : List δ) (paired : Bool) : Option (List ν) :=
  if paired then none
  else
    let names := (ds.filter (fun v => decide (∀ d ∈ dim :: moms, d ∈ v.2.dims))).map Prod.fst
    if names.length = 1 then none else some names

/-- `resample/resample.py:218-271` `resample_data`, `Dataset` branch, for tables without names of
dimensions, or a `Dataset` of tables. -/
def resampleDs (core : Nd.Core K M) (k : Kernel K V M) (tables : Tables ν K) (ds : Dataset ν δ K)
    (moms : List δ) (axis : Option (Option AxisArg)) (dim : Option (Option δ)) (rep : δ)
    (axesToEnd : Bool) : Py (Dataset ν δ (Option K)) :=
  (selectAxisDimDataset moms axis dim false).bind fun sd =>
  if ¬ tables.Fits ds then .error .valueError
  else
    (applyDataset ds (sd.2 :: moms) some (fun n x =>
      applyUfunc x (sd.2 :: moms) [rep, sd.2] (rep :: moms) [] (fun a =>
        Nd.resampleInner core k (tables.for n).1 (tables.for n).2 a (axisBefore core.nd)
          (Nd.axesLast core.nd)))).bind fun out =>
    out.mapVars fun n y =>
      y.step (fun z => resampleDataDims z (ds.dimsOf n) sd.2 rep sd.1 moms axesToEnd true)

/-- `reduction.py:964-1024` `reduce_data_grouped`, `Dataset` branch. -/
def groupedDs (core : Nd.Core K M) (k : Kernel K V M) (by_ : List ℤ) (ds : Dataset ν δ K)
    (moms : List δ) (axis : Option (Option AxisArg)) (dim : Option (Option δ))
    (groupDim : Option δ) (axesToEnd : Bool) : Py (Dataset ν δ (Option K)) :=
  (selectAxisDimDataset moms axis dim false).bind fun sd =>
  (applyDataset ds (sd.2 :: moms) some (fun _ x =>
    applyUfunc x (sd.2 :: moms) [sd.2] (sd.2 :: moms) [sd.2] (fun a =>
      Nd.groupedInner core k by_ a (axisBefore core.nd) (Nd.axesLast core.nd)))).bind fun out =>
  (orderSame ds out sd.2 moms axesToEnd).bind fun out => out.renameTo sd.2 groupDim

/-- `reduction.py:1382-1467` `reduce_data_indexed`, `Dataset` branch. -/
def indexedDs (core : Nd.Core K M) (k : Kernel K V M) (index start stop : List ℤ)
    (scale : Option (List K)) (ds : Dataset ν δ K) (moms : List δ)
    (axis : Option (Option AxisArg)) (dim : Option (Option δ)) (groupDim : Option δ)
    (axesToEnd : Bool) : Py (Dataset ν δ (Option K)) :=
  (selectAxisDimDataset moms axis dim false).bind fun sd =>
  (ds.sizeOf sd.2).bind fun ndat =>
  (Indexed.validateIndex ndat index start stop).bind fun _ =>
  (applyDataset ds (sd.2 :: moms) some (fun _ x =>
    applyUfunc x (sd.2 :: moms) [] (sd.2 :: moms) [sd.2] (fun a =>
      Nd.indexedInner core k index start stop scale a (axisBefore core.nd)
        (Nd.axesLast core.nd)))).bind fun out =>
  (orderSame ds out sd.2 moms axesToEnd).bind fun out => out.renameTo sd.2 groupDim

/-- `resample/resample.py:787-869` `jackknife_data`, `Dataset` branch, with `data_reduced=None`. A
variable is copied unless it has the dimensions and its reduction has the moment dimensions. -/
def jackknifeDs (core : Nd.Core K M) (k : Kernel K V M) (ds : Dataset ν δ K) (moms : List δ)
    (axis : Option (Option AxisArg)) (dim : Option (Option δ)) (rep : Option δ) (axesToEnd : Bool) :
    Py (Dataset ν δ (Option K)) :=
  (reduceDs core k ds moms (oneAxis axis) (oneDim dim) false true none).bind fun reduced =>
  (selectAxisDimDataset moms axis dim false).bind fun sd =>
  (applyDataset ds (sd.2 :: moms) some (fun n x =>
    match reduced.lookup n with
    | none => .error .valueError
    | some r =>
      if ¬ ∀ d ∈ moms, d ∈ r.dims then .ok (x.mapData some)
      else
        applyUfunc₂ x r (sd.2 :: moms) moms (sd.2 :: moms) (fun a r =>
          Nd.jackknifeReducedNd core k r none a (axisBefore core.nd) (Nd.axesLast core.nd)))).bind
    fun out =>
  (orderSame ds out sd.2 moms axesToEnd).bind fun out => out.renameTo sd.2 rep

section Ordered

variable {K V M : Type} [Field K] [LinearOrder K] [IsStrictOrderedRing K]

/-- `rolling.py:427-480` `rolling_data`, `Dataset` branch. -/
def rollingDs (core : Nd.Core K M) (k : Kernel K V M) (window : ℕ) (minPeriods : Option ℤ)
    (center zeroMissing : Bool) (ds : Dataset ν δ K) (moms : List δ)
    (axis : Option (Option AxisArg)) (dim : Option (Option δ)) (axesToEnd : Bool) :
    Py (Dataset ν δ (Option K)) :=
  (selectAxisDimDataset moms axis dim false).bind fun sd =>
  (applyDataset ds (sd.2 :: moms) some (fun _ x =>
    applyUfunc x (sd.2 :: moms) [] (sd.2 :: moms) [] (fun a =>
      Nd.rollingInner core k window minPeriods center zeroMissing a (axisBefore core.nd)
        (Nd.axesLast core.nd)))).bind fun out =>
  orderSame ds out sd.2 moms axesToEnd

/-- `rolling.py:978-1045` `rolling_exp_data`, `Dataset` branch, with one number `alpha` for all
samples, or one per sample (`rolling.py:1087-1108`). -/
def rollingExpPlainDs (core : Nd.Core K M) (k : Kernel K V M) (alpha : K ⊕ List K)
    (adjust : Bool) (minPeriods : Option ℤ) (zeroMissing : Bool) (ds : Dataset ν δ K)
    (moms : List δ) (axis : Option (Option AxisArg)) (dim : Option (Option δ)) (axesToEnd : Bool) :
    Py (Dataset ν δ (Option K)) :=
  (selectAxisDimDataset moms axis dim false).bind fun sd =>
  (ds.sizeOf sd.2).bind fun ndat =>
  (applyDataset ds (sd.2 :: moms) some (fun _ x =>
    applyUfunc x (sd.2 :: moms) [sd.2] (sd.2 :: moms) [] (fun a =>
      Nd.rollingExpInner core k
        (match alpha with
          | .inl al => ⟨[ndat], fun _ => al⟩
          | .inr l => ⟨[l.length], fun i => l.getD (i 0) 0⟩)
        (-1) adjust minPeriods zeroMissing a (axisBefore core.nd) (Nd.axesLast core.nd)))).bind
    fun out =>
  orderSame ds out sd.2 moms axesToEnd

end Ordered

end Cmomy.Labelled
