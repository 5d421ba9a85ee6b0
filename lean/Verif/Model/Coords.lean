import Verif.Model.LabelledCollect

/-!
# Coordinates of the results

The coordinates which `reduce_data`, `reduce_data_grouped`, `reduce_data_indexed`, `cumulative`,
`moments_type`, `resample_data`, `jackknife_data`, `rolling_data` and `CentralMomentsData.reduce` give to
their results, for a `DataArray`. A coordinate has a name and is a labelled array of labels. xarray is
not part of the repository: what `apply_ufunc`, `isel`, `assign_coords` and `rename` do with coordinates
is modelled by their contracts. Indexes are not modelled apart from the coordinates they belong to, nor
are attributes, dask and `out`. The labels of all coordinates are of the same type `γ`.
-/

namespace Cmomy.Labelled

open Axes

variable {δ : Type} [DecidableEq δ] {α γ : Type}

/-- `x.coords`: names and labels. -/
abbrev CoordList (δ γ : Type) := List (δ × DataArray δ γ)

/-- A `DataArray` with its coordinates. -/
structure Coorded (δ γ α : Type) where
  arr : DataArray δ α
  coords : CoordList δ γ

/-- Contract of `apply_ufunc` (`build_output_coords_and_indexes`) for one labelled input: coordinates
along an excluded dimension, or along a core dimension that the output does not have, are dropped. -/
def ufuncCoords (coords : CoordList δ γ) (inCore outCore exclude : List δ) : CoordList δ γ :=
  coords.filter (fun c => c.2.dims.all (fun d => decide (d ∉ exclude ∧ (d ∈ inCore → d ∈ outCore))))

/-- Contract of `c.isel({dim: sel})` for positions within the dimension. -/
def takeAlong (c : DataArray δ γ) (dim : δ) (sel : List ℕ) : DataArray δ γ where
  dims := c.dims
  data idx := c.data (idx.set (c.dims.idxOf dim) (sel.getD (idx.getD (c.dims.idxOf dim) 0) 0))
  size d := if d = dim then sel.length else c.size d

/-- `core/xr_utils.py:83-127` `replace_coords_from_isel(original, selected, {dim: sel})`: the coordinates
of the original, at the selected positions. -/
def replaceCoords (coords : CoordList δ γ) (dim : δ) (sel : List ℕ) : CoordList δ γ :=
  coords.map (fun c => (c.1, if dim ∈ c.2.dims then takeAlong c.2 dim sel else c.2))

/-- Contract of `rename({old: new})` for the coordinates. Nothing is claimed when there is a coordinate
`new` already. -/
def renameCoords (coords : CoordList δ γ) (old : δ) (new : Option δ) : Py (CoordList δ γ) :=
  match new with
  | none => .ok coords
  | some new =>
    if new = old then .ok coords
    else if ∃ c ∈ coords, c.1 = new then .error .undefined
    else .ok (coords.map (fun c => (if c.1 = old then new else c.1,
      { dims := c.2.dims.map (fun d => if d = old then new else d), data := c.2.data,
        size := fun d => if d = new then c.2.size old else c.2.size d })))

/-- Contract of `assign_coords({dim: (dim, labels)})` for a dimension of size `n`. -/
def assignCoord [Inhabited γ] (coords : CoordList δ γ) (dim : δ) (n : ℕ) (labels : List γ) :
    Py (CoordList δ γ) :=
  if labels.length ≠ n then .error .valueError
  else .ok (coords.filter (fun c => decide (c.1 ≠ dim)) ++
    [(dim, { dims := [dim], data := fun idx => labels.getD (idx.headD 0) default, size := fun _ => n })])

/-- `coords_policy` -/
inductive CoordsPolicy
  | first
  | last
  | group
  | drop
deriving DecidableEq, Repr

/-- Contract of `index[z]` for one number. -/
def npItem (index : List ℤ) (z : ℤ) : Py ℤ :=
  if 0 ≤ z ∧ z < index.length then .ok (index.getD z.toNat 0)
  else if z < 0 ∧ 0 ≤ z + index.length then .ok (index.getD (z + index.length).toNat 0)
  else .error .indexError

/-- `reduction.py:1452-1454` `dim_select` -/
def dimSelect (last : Bool) (index start stop : List ℤ) : Py (List ℕ) :=
  ((if last then stop.map (· - 1) else start).mapM (npItem index)).map (·.map Int.toNat)

variable {K V M : Type} [Field K] [DecidableEq K]

/-- `reduction.py:434-541` `reduce_data`: the reduced dimensions are excluded. -/
def reduceC (core : Nd.Core K M) (k : Kernel K V M) (x : Coorded δ γ K) (moms : List δ)
    (axis : Option AxesArg) (dim : Option (Option (List δ))) (keepdims axesToEnd : Bool) :
    Py (Coorded δ γ (Option K)) :=
  (selectAxisDimMult x.arr.dims moms axis dim).bind fun sd =>
  (reduceX core k x.arr moms axis dim keepdims axesToEnd).map fun y =>
  ⟨y, ufuncCoords x.coords (sd.2 ++ moms) (if keepdims then sd.2 ++ moms else moms) sd.2⟩

/-- `convert.py:422-477` `cumulative` -/
def cumulativeC (core : Nd.Core K M) (k : Kernel K V M) (inverse : Bool) (x : Coorded δ γ K)
    (moms : List δ) (axis : Option (Option AxisArg)) (dim : Option (Option δ)) (axesToEnd : Bool) :
    Py (Coorded δ γ (Option K)) :=
  (selectAxisDim x.arr.dims moms axis dim none none false).bind fun sd =>
  (cumulativeX core k inverse x.arr moms axis dim axesToEnd).map fun y =>
  ⟨y, ufuncCoords x.coords (sd.2 :: moms) (sd.2 :: moms) []⟩

/-- `convert.py:215-254` `moments_type` -/
def momentsTypeC (core : Nd.Core K M) (conv : M → M) (orderCF : Bool) (x : Coorded δ γ K)
    (moms : List δ) (axesToEnd : Bool) : Py (Coorded δ γ K) :=
  (momentsTypeX core conv orderCF x.arr moms axesToEnd).map fun y =>
  ⟨y, ufuncCoords x.coords moms moms []⟩

/-- `resample/resample.py:218-271` `resample_data`, for a table without coordinates. -/
def resampleC (core : Nd.Core K M) (k : Kernel K V M) (freq : List (List K)) (nsamp : ℕ)
    (x : Coorded δ γ K) (moms : List δ) (axis : Option (Option AxisArg)) (dim : Option (Option δ))
    (rep : δ) (axesToEnd : Bool) : Py (Coorded δ γ (Option K)) :=
  (selectAxisDim x.arr.dims moms axis dim none none false).bind fun sd =>
  (resampleX core k freq nsamp x.arr moms axis dim rep axesToEnd).map fun y =>
  ⟨y, ufuncCoords x.coords (sd.2 :: moms ++ [rep, sd.2]) (rep :: moms) []⟩

/-- `resample/resample.py:787-869` `jackknife_data` with `data_reduced=None`: the coordinates of the
reduced data are among those of the data. -/
def jackknifeC (core : Nd.Core K M) (k : Kernel K V M) (x : Coorded δ γ K) (moms : List δ)
    (axis : Option (Option AxisArg)) (dim : Option (Option δ)) (rep : Option δ) (axesToEnd : Bool) :
    Py (Coorded δ γ (Option K)) :=
  (jackknifeX core k x.arr moms axis dim rep axesToEnd).bind fun y =>
  (selectAxisDim x.arr.dims moms axis dim none none false).bind fun sd =>
  (renameCoords (ufuncCoords x.coords (sd.2 :: moms) (sd.2 :: moms) []) sd.2 rep).map fun cs => ⟨y, cs⟩

/-- `reduction.py:964-1024` `reduce_data_grouped`. The array and the coordinates are renamed together
(`reduction.py:1021-1022`). -/
def groupedC [Inhabited γ] (core : Nd.Core K M) (k : Kernel K V M) (by_ : List ℤ) (x : Coorded δ γ K)
    (moms : List δ) (axis : Option (Option AxisArg)) (dim : Option (Option δ))
    (groups : Option (List γ)) (groupDim : Option δ) (axesToEnd : Bool) :
    Py (Coorded δ γ (Option K)) :=
  (selectAxisDim x.arr.dims moms axis dim none none false).bind fun sd =>
  (groupedX core k by_ x.arr moms axis dim groupDim axesToEnd).bind fun y =>
  (let cs := ufuncCoords x.coords (sd.2 :: moms) (sd.2 :: moms) [sd.2]
   match groups with
   | none => .ok cs
   | some l => assignCoord cs sd.2 (y.size (groupDim.getD sd.2)) l : Py (CoordList δ γ)).bind fun cs =>
  (renameCoords cs sd.2 groupDim).map fun cs => ⟨y, cs⟩

/-- `reduction.py:1382-1467` `reduce_data_indexed`. -/
def indexedC [Inhabited γ] (core : Nd.Core K M) (k : Kernel K V M) (index start stop : List ℤ)
    (scale : Option (List K)) (x : Coorded δ γ K) (moms : List δ)
    (axis : Option (Option AxisArg)) (dim : Option (Option δ)) (policy : CoordsPolicy)
    (groups : Option (List γ)) (groupDim : Option δ) (axesToEnd : Bool) :
    Py (Coorded δ γ (Option K)) :=
  (selectAxisDim x.arr.dims moms axis dim none none false).bind fun sd =>
  (indexedX core k index start stop scale x.arr moms axis dim groupDim axesToEnd).bind fun y =>
  (let cs := ufuncCoords x.coords (sd.2 :: moms) (sd.2 :: moms) [sd.2]
   match policy, groups with
   | .first, _ => (dimSelect false index start stop).map (replaceCoords x.coords sd.2)
   | .last, _ => (dimSelect true index start stop).map (replaceCoords x.coords sd.2)
   | .group, some l => assignCoord cs sd.2 (y.size (groupDim.getD sd.2)) l
   | _, _ => .ok cs : Py (CoordList δ γ)).bind fun cs =>
  (renameCoords cs sd.2 groupDim).map fun cs => ⟨y, cs⟩

/-- The `by` argument of `reduce`: labels, or the name of a coordinate. -/
inductive ByArg (δ : Type)
  | labels (l : List (Option ℤ))
  | coord (name : δ)

/-- `self._obj[name].to_numpy()` for integer labels along one dimension. Nothing is claimed for other
coordinates, nor for the name of a dimension without a coordinate. -/
def coordLabels (x : Coorded δ ℤ α) (name : δ) : Py (List (Option ℤ)) :=
  match x.coords.lookup name with
  | none => if name ∈ x.arr.dims then .error .undefined else .error .keyError
  | some c =>
    match c.dims with
    | [d] => .ok ((List.range (c.size d)).map (fun i => some (c.data [i])))
    | _ => .error .undefined

/-- `wrapper/wrap_xr.py:764-766` `groups or range(by.max() + 1)` -/
def blockGroups (groups : Option (List ℤ)) (labels : List (Option ℤ)) : Option (List ℤ) :=
  if groups.getD [] ≠ [] then groups
  else some ((List.range (((labels.filterMap id).max?.getD (-1)) + 1).toNat).map (fun i : ℕ => (i : ℤ)))

/-- `wrapper/wrap_xr.py:788-857` The branches of `reduce` with labels: `"first"` and `"last"` go by
`reduce_data_indexed`, all other policies by `reduce_data_grouped`. `argsort` is `np.argsort`. -/
def reduceByC (core : Nd.Core K M) (k : Kernel K V M) (argsort : List ℤ → List ℕ)
    (x : Coorded δ ℤ K) (moms : List δ) (axis : Option (Option AxisArg)) (dim : Option (Option δ))
    (labels : List (Option ℤ)) (named : Bool) (policy : CoordsPolicy) (groups : Option (List ℤ))
    (groupDim : Option δ) (axesToEnd : Bool) : Py (Coorded δ ℤ (Option K)) :=
  if policy = .first ∨ policy = .last then
    let t := Factor.factorByToIndex argsort false labels
    indexedC core k (t.2.1.map (fun i : ℕ => (i : ℤ))) (t.2.2.1.map (fun i : ℕ => (i : ℤ)))
      (t.2.2.2.map (fun i : ℕ => (i : ℤ))) none x moms axis dim policy (some (groups.getD t.1)) groupDim
      axesToEnd
  else if named then
    let t := Factor.factorBy true false labels
    groupedC core k t.2 x moms axis dim (some (groups.getD t.1)) groupDim axesToEnd
  else if none ∈ labels then .error .typeError
  else groupedC core k (labels.filterMap id) x moms axis dim groups groupDim axesToEnd

/-- `wrapper/wrap_xr.py:613-859` `reduce` for a `DataArray` with integer labels. -/
def reduceObjC (core : Nd.Core K M) (k : Kernel K V M) (argsort : List ℤ → List ℕ)
    (x : Coorded δ ℤ K) (moms : List δ) (axis : Option AxesArg) (dim : Option (Option (List δ)))
    (by_ : Option (ByArg δ)) (block : Option ℤ) (policy : CoordsPolicy) (groups : Option (List ℤ))
    (groupDim : Option δ) (keepdims axesToEnd : Bool) : Py (Coorded δ ℤ (Option K)) :=
  match by_, block with
  | none, none => reduceC core k x moms axis dim keepdims false
  | by_, block =>
    (singleAxis axis).bind fun axis =>
    (singleDim dim).bind fun dim =>
    match by_, block with
    | some (.labels l), _ =>
      reduceByC core k argsort x moms axis dim l false policy groups groupDim axesToEnd
    | some (.coord name), _ =>
      (coordLabels x name).bind fun l =>
      reduceByC core k argsort x moms axis dim l true policy groups groupDim axesToEnd
    | none, some b =>
      (blockLabels x.arr moms axis dim b).bind fun l =>
      reduceByC core k argsort x moms axis dim l false policy (blockGroups groups l) groupDim axesToEnd
    | none, none => .error .undefined

section Ordered

variable {K V M : Type} [Field K] [LinearOrder K] [IsStrictOrderedRing K]

/-- `rolling.py:427-480` `rolling_data` -/
def rollingC (core : Nd.Core K M) (k : Kernel K V M) (window : ℕ) (minPeriods : Option ℤ)
    (center zeroMissing : Bool) (x : Coorded δ γ K) (moms : List δ)
    (axis : Option (Option AxisArg)) (dim : Option (Option δ)) (axesToEnd : Bool) :
    Py (Coorded δ γ (Option K)) :=
  (selectAxisDim x.arr.dims moms axis dim none none false).bind fun sd =>
  (rollingX core k window minPeriods center zeroMissing x.arr moms axis dim axesToEnd).map fun y =>
  ⟨y, ufuncCoords x.coords (sd.2 :: moms) (sd.2 :: moms) []⟩

/-- `rolling.py:978-1045` `rolling_exp_data` with `alpha` a number, or one number per sample. -/
def rollingExpC (core : Nd.Core K M) (k : Kernel K V M) (alpha : K ⊕ List K) (adjust : Bool)
    (minPeriods : Option ℤ) (zeroMissing : Bool) (x : Coorded δ γ K) (moms : List δ)
    (axis : Option (Option AxisArg)) (dim : Option (Option δ)) (axesToEnd : Bool) :
    Py (Coorded δ γ (Option K)) :=
  (selectAxisDim x.arr.dims moms axis dim none none false).bind fun sd =>
  (rollingExpPlainX core k alpha adjust minPeriods zeroMissing x.arr moms axis dim axesToEnd).map fun y =>
  ⟨y, ufuncCoords x.coords (sd.2 :: moms) (sd.2 :: moms) []⟩

end Ordered

end Cmomy.Labelled
