import Verif.Model.LabelledVals

/-!
# Results written to a given array

`out=` of the reduction functions: the views of `out` that are handed down (`core/prepare.py:260-353`,
`reduction.py:600-613`), and what `out` holds afterwards. Data types are not modelled. A function
called with an `out` of the shape of its result writes its result there and returns that array; when
the shapes differ, numpy raises or stretches the result, and nothing is claimed.
-/

namespace Cmomy.Nd

open Axes

/-- A view of an array: its shape, and the position in the view of the element at a given position
of the array. -/
structure View where
  shape : List ℕ
  pos : (ℕ → ℕ) → ℕ → ℕ

/-- The array itself. -/
def View.whole (shape : List ℕ) : View := ⟨shape, id⟩

/-- `v.transpose(*order)` -/
def View.transpose (v : View) (order : List ℕ) : View where
  shape := order.map (fun ax => v.shape.getD ax 0)
  pos i p := v.pos i (order.getD p 0)

/-- `np.moveaxis(v, source, destination)` -/
def View.moveaxis (v : View) (source destination : List ℤ) : Py View :=
  (moveaxisOrder v.shape.length (source.map .int) (destination.map .int)).map v.transpose

/-- `np.squeeze(v, axis=axes)`: only axes of size one can be dropped. -/
def View.squeeze (v : View) (axes : List ℤ) : Py View :=
  (normalizeAxes (axes.map .int) v.shape.length none false).bind fun axs =>
  if ∃ a ∈ axs, v.shape.getD a 0 ≠ 1 then .error .valueError
  else
    let kept := (List.range v.shape.length).filter (fun p => p ∉ axs)
    .ok { shape := kept.map (fun p => v.shape.getD p 0), pos := fun i p => v.pos i (kept.getD p 0) }

/-- `out` after `a` was written to its view `v`. -/
def View.fill {α : Type*} (v : View) (out a : Arr α) : Py (Arr α) :=
  if v.shape = a.shape then .ok ⟨out.shape, fun i => a.get (v.pos i)⟩ else .error .undefined

variable {K V M : Type*} [Field K] [DecidableEq K]

/-- `reduction.py:592-647` with `out` given: the result, and `out` afterwards. Without an axis to
reduce over the data are returned and `out` is not looked at. -/
def reduceCoreOut (core : Core K M) (k : Kernel K V M) (data : Arr K) (momAxes axes : List ℕ)
    (keepdims axesToEnd : Bool) (out : Arr (Option K)) : Py (Arr (Option K) × Arr (Option K)) :=
  if axes = [] then .ok (⟨data.shape, fun i => some (data.get i)⟩, out)
  else
    (moveaxisOrder data.shape.length (axes.map (fun s : ℕ => .int s))
        ((List.range axes.length).map (fun j : ℕ => .int (-(axes.length : ℤ) + j)))).bind fun order =>
    ((data.transpose order).mergeLast axes.length).bind fun d =>
    (if axesToEnd then
      (if keepdims then
        (View.whole out.shape).squeeze ((List.range axes.length).map
          (fun j : ℕ => -((axes.length + core.nd : ℕ) : ℤ) + j))
      else .ok (View.whole out.shape)).bind fun v =>
      v.moveaxis (axesLast core.nd) ((momAxes.map order.idxOf).map (fun a : ℕ => (a : ℤ)))
    else if keepdims then (View.whole out.shape).squeeze (axes.map (fun a : ℕ => (a : ℤ)))
    else .ok (View.whole out.shape)).bind fun v =>
    (reduceGufunc core k d (momAxes.map order.idxOf)).bind fun r =>
    (v.fill out r).bind fun out' =>
    (if axesToEnd then
      if keepdims then
        (r.expandDims axes).moveaxis (axes ++ momAxes)
          ((List.range (axes.length + momAxes.length)).map
            (fun j : ℕ => -((axes.length + momAxes.length : ℕ) : ℤ) + j))
      else
        r.moveaxis (momAxes.map order.idxOf)
          ((List.range momAxes.length).map (fun j : ℕ => -(momAxes.length : ℤ) + j))
    else if keepdims then .ok (r.expandDims axes)
    else .ok r).map fun z => (z, out')

/-- `reduction.py:563-647` `_reduce_data` with `out` given. -/
def reduceNdOut (core : Core K M) (k : Kernel K V M) (data : Arr K) (momAxes : List ℤ)
    (axis : AxesArg) (keepdims axesToEnd : Bool) (out : Arr (Option K)) :
    Py (Arr (Option K) × Arr (Option K)) :=
  (normalizeAxes (momAxes.map .int) data.shape.length none false).bind fun mom =>
  (reductionAxes axis data.shape.length core.nd mom).bind fun axes =>
  reduceCoreOut core k data mom axes keepdims axesToEnd out

end Cmomy.Nd

namespace Cmomy.Labelled

open Axes
open Nd (View)

variable {δ : Type} [DecidableEq δ] {α β : Type}

/-- `core/prepare.py:260-287` `xprepare_out_for_reduce_data`, for a `DataArray` with dimensions
`dims`, an `out` of shape `shape`, and `ds`, `moms` among `dims`. -/
def outForReduce (shape : List ℕ) (dims ds moms : List δ) (keepdims axesToEnd : Bool) : Py View :=
  if axesToEnd then .ok (.whole shape)
  else if keepdims then
    (View.whole shape).moveaxis ((ds ++ moms).map (fun d => (dims.idxOf d : ℤ)))
      (Nd.axesLast (ds.length + moms.length))
  else
    (View.whole shape).moveaxis
      (moms.map (fun d => ((dims.filter (fun e => decide (e ∉ ds))).idxOf d : ℤ)))
      (Nd.axesLast moms.length)

/-- `core/prepare.py:290-308` `xprepare_out_for_transform`. -/
def outForTransform (shape : List ℕ) (dims moms : List δ) (axesToEnd : Bool) : Py View :=
  if axesToEnd then .ok (.whole shape)
  else (View.whole shape).moveaxis (moms.map (fun d => (dims.idxOf d : ℤ))) (Nd.axesLast moms.length)

/-- `core/prepare.py:311-332` `xprepare_out_for_resample_vals`. -/
def outForVals (shape : List ℕ) (dims : List δ) (dim : δ) (nd : ℕ) (axesToEnd : Bool) : Py View :=
  if axesToEnd then .ok (.whole shape)
  else (View.whole shape).moveaxis [positiveToNegative (dims.idxOf dim) dims.length - nd]
    [-((nd : ℤ) + 1)]

/-- `core/prepare.py:335-353` `xprepare_out_for_resample_data`. -/
def outForData (shape : List ℕ) (dims : List δ) (axis : ℕ) (moms : List δ) (axesToEnd : Bool) :
    Py View :=
  if axesToEnd then .ok (.whole shape)
  else (View.whole shape).moveaxis ((axis : ℤ) :: moms.map (fun d => (dims.idxOf d : ℤ)))
    (-((moms.length : ℤ) + 1) :: Nd.axesLast moms.length)

/-- A call through `apply_ufunc` with a view of `out`: the result of `apply_ufunc` is the view, its
dimensions are put in order afterwards. The result, and `out` afterwards. -/
def throughView (out : Nd.Arr α) (view : Py View) (inner : Py (DataArray δ α))
    (finish : DataArray δ α → Py (DataArray δ α)) : Py (DataArray δ α × Nd.Arr α) :=
  view.bind fun v =>
  inner.bind fun y =>
  (v.fill out y.values).bind fun o =>
  (finish y).map fun z => (z, o)

/-- `x.rename({old: new})`, if there is a new name. -/
def renameTo (old : δ) (new : Option δ) (z : DataArray δ α) : Py (DataArray δ α) :=
  match new with
  | none => .ok z
  | some g => z.rename old g

/-- Functions that keep the dimensions of the data, `inner` being the call of `apply_ufunc`. -/
def sameOut (x : DataArray δ β) (moms : List δ) (axis : Option (Option AxisArg))
    (dim : Option (Option δ)) (new : Option δ) (axesToEnd : Bool) (out : Nd.Arr α)
    (inner : ℕ × δ → Py (DataArray δ α)) : Py (DataArray δ α × Nd.Arr α) :=
  (selectAxisDim x.dims moms axis dim none none false).bind fun sd =>
  throughView out (outForData out.shape x.dims sd.1 moms axesToEnd) (inner sd) fun y =>
  (y.step (fun z => sameDims z x.dims sd.2 moms axesToEnd false)).bind (renameTo sd.2 new)

variable {K V M : Type} [Field K] [DecidableEq K]

/-- `reduction.py:434-541` `reduce_data`, `DataArray` branch, with `out`. Without a dimension to
reduce over, `_reduce_data` returns its data and does not look at `out` (`reduction.py:590-591`). -/
def reduceOutX (core : Nd.Core K M) (k : Kernel K V M) (x : DataArray δ K) (moms : List δ)
    (axis : Option AxesArg) (dim : Option (Option (List δ))) (keepdims axesToEnd : Bool)
    (out : Nd.Arr (Option K)) : Py (DataArray δ (Option K) × Nd.Arr (Option K)) :=
  (selectAxisDimMult x.dims moms axis dim).bind fun sd =>
  let view := outForReduce out.shape x.dims sd.2 moms keepdims axesToEnd
  let inner := applyUfunc x (sd.2 ++ moms) [] (if keepdims then sd.2 ++ moms else moms) sd.2 (fun a =>
    Nd.reduceNd core k a (Nd.axesLast core.nd)
      (.many ((List.range sd.2.length).map (fun j : ℕ =>
        .int (-(sd.2.length : ℤ) - core.nd + j)))) keepdims false)
  let finish := fun y : DataArray δ (Option K) =>
    y.step (fun z => reduceDataDims z x.dims sd.2 moms keepdims axesToEnd)
  if sd.2 = [] then view.bind fun _ => (inner.bind finish).map fun z => (z, out)
  else throughView out view inner finish

/-- `convert.py:422-477` `cumulative`, `DataArray` branch, with `out`. -/
def cumulativeOutX (core : Nd.Core K M) (k : Kernel K V M) (inverse : Bool) (x : DataArray δ K)
    (moms : List δ) (axis : Option (Option AxisArg)) (dim : Option (Option δ)) (axesToEnd : Bool)
    (out : Nd.Arr (Option K)) : Py (DataArray δ (Option K) × Nd.Arr (Option K)) :=
  sameOut x moms axis dim none axesToEnd out fun sd =>
    applyUfunc x (sd.2 :: moms) [] (sd.2 :: moms) [] (fun a =>
      Nd.cumulativeInner core k inverse a (axisBefore core.nd) (Nd.axesLast core.nd))

/-- `resample/resample.py:218-271` `resample_data`, `DataArray` branch, with `out`. -/
def resampleOutX (core : Nd.Core K M) (k : Kernel K V M) (freq : List (List K)) (nsamp : ℕ)
    (x : DataArray δ K) (moms : List δ) (axis : Option (Option AxisArg)) (dim : Option (Option δ))
    (rep : δ) (axesToEnd : Bool) (out : Nd.Arr (Option K)) :
    Py (DataArray δ (Option K) × Nd.Arr (Option K)) :=
  (selectAxisDim x.dims moms axis dim none none false).bind fun sd =>
  throughView out (outForData out.shape x.dims sd.1 moms axesToEnd)
    (applyUfunc x (sd.2 :: moms) [rep, sd.2] (rep :: moms) [] (fun a =>
      Nd.resampleInner core k freq nsamp a (axisBefore core.nd) (Nd.axesLast core.nd)))
    fun y => y.step (fun z => resampleDataDims z x.dims sd.2 rep sd.1 moms axesToEnd false)

/-- `reduction.py:964-1024` `reduce_data_grouped`, `DataArray` branch, with `out`. An `out` with
another number of groups than there are is not modelled. -/
def groupedOutX (core : Nd.Core K M) (k : Kernel K V M) (by_ : List ℤ) (x : DataArray δ K)
    (moms : List δ) (axis : Option (Option AxisArg)) (dim : Option (Option δ))
    (groupDim : Option δ) (axesToEnd : Bool) (out : Nd.Arr (Option K)) :
    Py (DataArray δ (Option K) × Nd.Arr (Option K)) :=
  sameOut x moms axis dim groupDim axesToEnd out fun sd =>
    applyUfunc x (sd.2 :: moms) [sd.2] (sd.2 :: moms) [sd.2] (fun a =>
      Nd.groupedInner core k by_ a (axisBefore core.nd) (Nd.axesLast core.nd))

/-- `reduction.py:1382-1467` `reduce_data_indexed`, `DataArray` branch, with `out`. -/
def indexedOutX (core : Nd.Core K M) (k : Kernel K V M) (index start stop : List ℤ)
    (scale : Option (List K)) (x : DataArray δ K) (moms : List δ)
    (axis : Option (Option AxisArg)) (dim : Option (Option δ)) (groupDim : Option δ)
    (axesToEnd : Bool) (out : Nd.Arr (Option K)) :
    Py (DataArray δ (Option K) × Nd.Arr (Option K)) :=
  sameOut x moms axis dim groupDim axesToEnd out fun sd =>
    (Indexed.validateIndex (x.size sd.2) index start stop).bind fun _ =>
    applyUfunc x (sd.2 :: moms) [] (sd.2 :: moms) [sd.2] (fun a =>
      Nd.indexedInner core k index start stop scale a (axisBefore core.nd) (Nd.axesLast core.nd))

/-- `resample/resample.py:787-869` `jackknife_data`, `DataArray` branch, with `out` and
`data_reduced=None`; `out` is not used for the reduction. -/
def jackknifeOutX (core : Nd.Core K M) (k : Kernel K V M) (x : DataArray δ K) (moms : List δ)
    (axis : Option (Option AxisArg)) (dim : Option (Option δ)) (rep : Option δ) (axesToEnd : Bool)
    (out : Nd.Arr (Option K)) : Py (DataArray δ (Option K) × Nd.Arr (Option K)) :=
  (reduceX core k x moms (oneAxis axis) (oneDim dim) false true).bind fun reduced =>
  sameOut x moms axis dim rep axesToEnd out fun sd =>
    applyUfunc₂ x reduced (sd.2 :: moms) moms (sd.2 :: moms) (fun a r =>
      Nd.jackknifeReducedNd core k r none a (axisBefore core.nd) (Nd.axesLast core.nd))

/-- `convert.py:215-254` `moments_type`, `DataArray` branch, with `out`. -/
def momentsTypeOutX (core : Nd.Core K M) (conv : M → M) (orderCF : Bool) (x : DataArray δ K)
    (moms : List δ) (axesToEnd : Bool) (out : Nd.Arr K) : Py (DataArray δ K × Nd.Arr K) :=
  throughView out (outForTransform out.shape x.dims moms axesToEnd)
    (applyUfunc x moms [] moms [] (fun a =>
      Nd.momentsTypeNd core conv orderCF a (Nd.axesLast core.nd) false))
    fun y => if axesToEnd then .ok y else y.step (fun z => transposeLike z x.dims [] [] [none] [])

/-- The new name of the sample dimension, if there is one. -/
def newName (dim : δ) (rep : Option δ) : List (δ × δ) := rep.elim [] fun r => [(dim, r)]

/-- Functions of values that keep their dimensions or replace the sample dimension by `new`;
`inner` is the call of `apply_ufunc`. -/
def valsOut (x : DataArray δ K) (others : List (Operand δ K)) (narrays nd : ℕ) (moms : List δ)
    (axis : Option (Option AxisArg)) (dim : Option (Option δ)) (rep new : Option δ)
    (axesToEnd : Bool) (out : Nd.Arr (Option K))
    (inner : δ × List (Operand δ K) → Py (DataArray δ (Option K))) :
    Py (DataArray δ (Option K) × Nd.Arr (Option K)) :=
  (xprepareValues x others narrays axis dim).bind fun p =>
  throughView out (outForVals out.shape x.dims p.1 nd axesToEnd) (inner p) fun y =>
  (y.step (fun z => valsDims z x.dims (newName p.1 rep)
    (rep.getD p.1) moms axesToEnd false)).bind (renameTo p.1 new)

/-- `reduction.py:210-254` `reduce_vals`, `DataArray` branch, with `out`, which is handed on as it
is. -/
def reduceValsOutX (val : List K → V) (core : Nd.Core K M) (fam : List ℕ → Kernel K V M)
    (mom : List ℕ) (moms : List δ) (x : DataArray δ K) (others : List (Operand δ K))
    (axis : Option (Option AxisArg)) (dim : Option (Option δ)) (out : Nd.Arr (Option K)) :
    Py (DataArray δ (Option K) × Nd.Arr (Option K)) :=
  throughView out (.ok (.whole out.shape))
    (reduceValsX val core fam mom moms x others axis dim) .ok

/-- `resample/resample.py:478-548` `resample_vals`, `DataArray` branch, with `out`. -/
def resampleValsOutX (val : List K → V) (core : Nd.Core K M) (fam : List ℕ → Kernel K V M)
    (mom : List ℕ) (moms : List δ) (freq : List (List K)) (nsamp : ℕ) (x : DataArray δ K)
    (others : List (Operand δ K)) (axis : Option (Option AxisArg)) (dim : Option (Option δ))
    (rep : δ) (orderCF axesToEnd : Bool) (out : Nd.Arr (Option K)) :
    Py (DataArray δ (Option K) × Nd.Arr (Option K)) :=
  valsOut x others (core.nd + 1) core.nd moms axis dim (some rep) none axesToEnd out fun p =>
    applyVals p.2 [] p.1 [rep, p.1] (rep :: moms) (fun _ => split fun a os =>
      Nd.resampleValsFrom val core fam mom (Nd.axesLast core.nd) freq nsamp (-1) a os orderCF)

/-- `resample/resample.py:1073-1156` `jackknife_vals`, `DataArray` branch, with `out` and
`data_reduced=None`. -/
def jackknifeValsOutX (val : List K → V) (core : Nd.Core K M) (fam : List ℕ → Kernel K V M)
    (mom : List ℕ) (moms : List δ) (x : DataArray δ K) (others : List (Operand δ K))
    (axis : Option (Option AxisArg)) (dim : Option (Option δ)) (rep : Option δ)
    (orderCF axesToEnd : Bool) (out : Nd.Arr (Option K)) :
    Py (DataArray δ (Option K) × Nd.Arr (Option K)) :=
  (reduceValsX val core fam mom moms x others axis dim).bind fun reduced =>
  valsOut x others (core.nd + 1) core.nd moms axis dim none rep axesToEnd out fun p =>
    applyVals p.2 [reduced.frame] p.1 moms (p.1 :: moms) (fun loop => split fun a os =>
      (compatData reduced loop moms).bind fun r =>
      Nd.jackknifeValsFrom val core fam mom (Nd.axesLast core.nd) r (-1) a os orderCF)

section Ordered

variable {K V M : Type} [Field K] [LinearOrder K] [IsStrictOrderedRing K]

/-- `rolling.py:532-534`: by how much the data are made longer. -/
def padded (window : ℕ) (center : Bool) : ℕ :=
  if center then (-(-(window : ℤ) / 2 + 1)).toNat else 0

/-- With `center` the data are made longer before `out` is used, and the result is a part of what
was written; an `out` of the shape of the result `y` is too short, which numpy refuses. Nothing is
claimed about other shapes. -/
def refuseShort (window : ℕ) (center : Bool) (view : Py View) (y : DataArray δ (Option K)) :
    Py (DataArray δ (Option K)) :=
  if padded window center = 0 then .ok y
  else
    match view with
    | .ok v => if v.shape = y.values.shape then .error .valueError else .error .undefined
    | .error e => .error e

/-- `rolling.py:427-480`, `510-571` `rolling_data`, `DataArray` branch, with `out`. -/
def rollingOutX (core : Nd.Core K M) (k : Kernel K V M) (window : ℕ) (minPeriods : Option ℤ)
    (center zeroMissing : Bool) (x : DataArray δ K) (moms : List δ)
    (axis : Option (Option AxisArg)) (dim : Option (Option δ)) (axesToEnd : Bool)
    (out : Nd.Arr (Option K)) : Py (DataArray δ (Option K) × Nd.Arr (Option K)) :=
  sameOut x moms axis dim none axesToEnd out fun sd =>
    (applyUfunc x (sd.2 :: moms) [] (sd.2 :: moms) [] (fun a =>
      Nd.rollingInner core k window minPeriods center zeroMissing a (axisBefore core.nd)
        (Nd.axesLast core.nd))).bind
      (refuseShort window center (outForData out.shape x.dims sd.1 moms axesToEnd))

/-- `rolling.py:978-1045` `rolling_exp_data`, `DataArray` branch, with a labelled `alpha` and
`out`. -/
def rollingExpOutX (core : Nd.Core K M) (k : Kernel K V M) (alpha : DataArray δ K)
    (adjust : Bool) (minPeriods : Option ℤ) (zeroMissing : Bool) (x : DataArray δ K)
    (moms : List δ) (axis : Option (Option AxisArg)) (dim : Option (Option δ)) (axesToEnd : Bool)
    (out : Nd.Arr (Option K)) : Py (DataArray δ (Option K) × Nd.Arr (Option K)) :=
  sameOut x moms axis dim none axesToEnd out fun sd =>
    applyUfunc₂ x alpha (sd.2 :: moms) [sd.2] (sd.2 :: moms) (fun a al =>
      Nd.rollingExpInner core k al (-1) adjust minPeriods zeroMissing a (axisBefore core.nd)
        (Nd.axesLast core.nd))

/-- The same with one number `alpha` for all samples, or one per sample. -/
def rollingExpPlainOutX (core : Nd.Core K M) (k : Kernel K V M) (alpha : K ⊕ List K)
    (adjust : Bool) (minPeriods : Option ℤ) (zeroMissing : Bool) (x : DataArray δ K)
    (moms : List δ) (axis : Option (Option AxisArg)) (dim : Option (Option δ)) (axesToEnd : Bool)
    (out : Nd.Arr (Option K)) : Py (DataArray δ (Option K) × Nd.Arr (Option K)) :=
  sameOut x moms axis dim none axesToEnd out fun sd =>
    applyUfunc x (sd.2 :: moms) [sd.2] (sd.2 :: moms) [] (fun a =>
      Nd.rollingExpInner core k
        (match alpha with
          | .inl al => ⟨[x.size sd.2], fun _ => al⟩
          | .inr l => ⟨[l.length], fun i => l.getD (i 0) 0⟩)
        (-1) adjust minPeriods zeroMissing a (axisBefore core.nd) (Nd.axesLast core.nd))

/-- `rolling.py:694-754`, `806-856` `rolling_vals`, `DataArray` branch, with `out`. -/
def rollingValsOutX (val : List K → V) (core : Nd.Core K M) (fam : List ℕ → Kernel K V M)
    (mom : List ℕ) (moms : List δ) (window : ℕ) (minPeriods : Option ℤ) (center zeroMissing : Bool)
    (x : DataArray δ K) (others : List (Operand δ K)) (axis : Option (Option AxisArg))
    (dim : Option (Option δ)) (orderCF axesToEnd : Bool) (out : Nd.Arr (Option K)) :
    Py (DataArray δ (Option K) × Nd.Arr (Option K)) :=
  valsOut x others (core.nd + 1) core.nd moms axis dim none none axesToEnd out fun p =>
    (applyVals p.2 [] p.1 [] (p.1 :: moms) (fun _ => split fun a os =>
      Nd.rollingValsFrom val core fam mom (Nd.axesLast core.nd) window minPeriods center zeroMissing
        (-1) a os orderCF)).bind
      (refuseShort window center (outForVals out.shape x.dims p.1 core.nd axesToEnd))

/-- `rolling.py:1295-1356` `rolling_exp_vals`, `DataArray` branch, with `out`. -/
def rollingExpValsOutX (val : List K → V) (core : Nd.Core K M) (fam : List ℕ → Kernel K V M)
    (mom : List ℕ) (moms : List δ) (adjust : Bool) (minPeriods : Option ℤ) (zeroMissing : Bool)
    (x : DataArray δ K) (w alpha : Operand δ K) (ys : List (Operand δ K))
    (axis : Option (Option AxisArg)) (dim : Option (Option δ)) (orderCF axesToEnd : Bool)
    (out : Nd.Arr (Option K)) : Py (DataArray δ (Option K) × Nd.Arr (Option K)) :=
  valsOut x (w :: alpha :: ys) (core.nd + 2) core.nd moms axis dim none none axesToEnd out fun p =>
    applyVals p.2 [] p.1 [] (p.1 :: moms) (fun _ => split fun a os =>
      Nd.rollingExpValsFrom val core fam mom (Nd.axesLast core.nd) adjust minPeriods zeroMissing
        (-1) a os orderCF)

end Ordered

end Cmomy.Labelled
