import Verif.Model.LabelledVals
import Verif.Model.PushNd

/-!
# Pushing onto a labelled object

`CentralMomentsData` over a `DataArray`: `push_val`, `push_vals`, `push_data` and `push_datas`. An
object is its labelled array together with the names of its moment dimensions. `apply_ufunc` is
modelled by its contract, see `Model/LabelledNd.lean`; the function it is given updates the arranged
array in place and hands it back. Coordinates, attributes, data types, dask and `Dataset` are not
modelled, nor is an argument that shares memory with the object, nor a dimension of the object called
`_dummy123`.
-/

namespace Cmomy.Labelled

open Axes

variable {δ : Type} [DecidableEq δ] {α : Type}

/-- What `apply_ufunc` hands on for an input with core dimensions `core`. -/
def Operand.arrangeAs (loop core : List δ) : Operand δ α → Py (Nd.Arr α)
  | .named y => compatData y loop core
  | .plain a => .ok a

/-- `np.asarray` of an operand: names are lost. -/
def Operand.asArray : Operand δ α → Nd.Arr α
  | .named y => y.values
  | .plain a => a

variable {K V M : Type} [Field K] [DecidableEq K]

/-- `apply_ufunc(func, self._obj, *ops, input_core_dims=[mom_dims, *cores],
output_core_dims=[mom_dims])`; every operand comes with its core dimensions. -/
def pushX (obj : DataArray δ (Option K)) (moms : List δ) (ops : List (Operand δ K × List δ))
    (f : Nd.Arr (Option K) → List (Nd.Arr K) → Py (Nd.Arr (Option K))) :
    Py (DataArray δ (Option K)) :=
  let frames := obj.frame :: ops.filterMap (fun o : Operand δ K × List δ => o.1.frame?)
  (loopDims frames [] (moms ++ ops.flatMap Prod.snd)).bind fun loop =>
  (compatData obj loop moms).bind fun out =>
  (ops.mapM (fun o : Operand δ K × List δ => o.1.arrangeAs loop o.2)).bind fun as =>
  (f out as).bind fun out' =>
  wrapResult frames [] (loop ++ moms) out'

/-- `wrapper/wrap_xr.py:483-530` `push_val`; `_check_y` at `wrapper/wrap_abc.py:351-355`. A missing
weight is the number one. -/
def pushValX (val : List K → V) (core : Nd.Core K M) (fam : List ℕ → Kernel K V M) (moms : List δ)
    (obj : DataArray δ (Option K)) (x w : Operand δ K) (ys : List (Operand δ K)) :
    Py (DataArray δ (Option K)) :=
  if ys.length ≠ core.nd - 1 then .error .valueError
  else pushX obj moms ((x :: w :: ys).map (fun o => (o, []))) (fun out as =>
    match as with
    | a :: b :: cs => Nd.pushValNd val core fam out a b cs
    | _ => .error .typeError)

/-- `wrapper/wrap_xr.py:576-587` the function handed to `apply_ufunc` by `push_vals`: the gufunc is
called without `axes`. -/
def pushValsFrom (val : List K → V) (core : Nd.Core K M) (fam : List ℕ → Kernel K V M)
    (obj : Nd.Arr (Option K)) (as : List (Nd.Arr K)) : Py (Nd.Arr (Option K)) :=
  let n := Nd.sizeOf (as.headD ⟨[], fun _ => 0⟩) (-1)
  (Nd.sampleOperands (as.map (fun a => (a, -1))) n).bind fun ops =>
  Nd.pushInto core obj none (ops.map (fun o => o.1.loopShape [o.2])) (fun sizes L l r =>
    (fam sizes).reduceVals (Nd.samplesAt val ops n L l) r)

/-- `wrapper/wrap_xr.py:532-608` `push_vals` with labelled values. -/
def pushValsX (val : List K → V) (core : Nd.Core K M) (fam : List ℕ → Kernel K V M)
    (moms : List δ) (obj : DataArray δ (Option K)) (x : DataArray δ K) (w : Operand δ K)
    (ys : List (Operand δ K)) (axis : Option (Option AxisArg)) (dim : Option (Option δ)) :
    Py (DataArray δ (Option K)) :=
  (xprepareValues x (w :: ys) (core.nd + 1) axis dim).bind fun p =>
  pushX obj moms (p.2.map (fun o => (o, [p.1]))) (pushValsFrom val core fam)

/-- `wrapper/wrap_xr.py:532-608` `push_vals` with plain values: weight and further values are turned
into plain arrays (`core/prepare.py:131-175`). -/
def pushValsPlainX (val : List K → V) (core : Nd.Core K M) (fam : List ℕ → Kernel K V M)
    (moms : List δ) (obj : DataArray δ (Option K)) (x : Nd.Arr K) (w : Operand δ K)
    (ys : List (Operand δ K)) (axis : AxisArg) : Py (DataArray δ (Option K)) :=
  (Nd.prepareValues x (w.asArray :: ys.map Operand.asArray) (core.nd + 1) axis true).bind fun p =>
  pushX obj moms ((p.2.1 :: p.2.2).map (fun a => (.plain a, []))) (pushValsFrom val core fam)

/-- `wrapper/wrap_xr.py:366-420` `push_data`; `scale` is a plain array. -/
def pushDataX (core : Nd.Core K M) (fam : List ℕ → Kernel K V M) (moms : List δ)
    (obj : DataArray δ (Option K)) (data : Operand δ K) (scale : Option (Nd.Arr K)) :
    Py (DataArray δ (Option K)) :=
  pushX obj moms [(data, moms)] (fun out as =>
    match as with
    | [d] => Nd.pushDataNd core fam out d scale
    | _ => .error .typeError)

/-- `wrapper/wrap_xr.py:442-449` the function handed to `apply_ufunc` by `push_datas`: the gufunc is
called without `axes`. -/
def pushDatasFrom (core : Nd.Core K M) (fam : List ℕ → Kernel K V M) (obj : Nd.Arr (Option K))
    (d : Nd.Arr K) : Py (Nd.Arr (Option K)) :=
  (Nd.lastAxes d.shape.length (core.nd + 1)).bind fun cs =>
  Nd.pushInto core obj (some (cs.tail.map (fun a => d.shape.getD a 0)))
    [d.loopShape cs] (fun sizes L l r => (fam sizes).reduceData (Nd.recordsAt core d cs L l) r)

/-- The only array. -/
def single (f : Nd.Arr (Option K) → Nd.Arr K → Py (Nd.Arr (Option K))) (out : Nd.Arr (Option K))
    (as : List (Nd.Arr K)) : Py (Nd.Arr (Option K)) :=
  match as with
  | [d] => f out d
  | _ => .error .typeError

/-- `wrapper/wrap_xr.py:422-481` `push_datas` with labelled data. -/
def pushDatasX (core : Nd.Core K M) (fam : List ℕ → Kernel K V M) (moms : List δ)
    (obj : DataArray δ (Option K)) (d : DataArray δ K) (axis : Option (Option AxisArg))
    (dim : Option (Option δ)) : Py (DataArray δ (Option K)) :=
  (selectAxisDim d.dims moms axis dim none none false).bind fun sd =>
  pushX obj moms [(.named d, sd.2 :: moms)] (single (pushDatasFrom core fam))

/-- `wrapper/wrap_xr.py:422-481` `push_datas` with plain data. -/
def pushDatasPlainX (core : Nd.Core K M) (fam : List ℕ → Kernel K V M) (moms : List δ)
    (obj : DataArray δ (Option K)) (d : Nd.Arr K) (axis : AxisArg) (momAxes : Option (List ℤ)) :
    Py (DataArray δ (Option K)) :=
  if (momAxes.getD (Nd.axesLast core.nd)).length ≠ core.nd then .error .valueError
  else
    (Nd.prepareData d axis (momAxes.getD (Nd.axesLast core.nd)) core.nd true).bind fun p =>
    pushX obj moms [(.plain p.2.2, [])] (single (pushDatasFrom core fam))

/-- A call of one of the four methods. -/
inductive PushX (δ K : Type)
  | val (x w : Operand δ K) (ys : List (Operand δ K))
  | vals (x : DataArray δ K) (w : Operand δ K) (ys : List (Operand δ K))
      (axis : Option (Option AxisArg)) (dim : Option (Option δ))
  | valsPlain (x : Nd.Arr K) (w : Operand δ K) (ys : List (Operand δ K)) (z : ℤ)
  | data (d : Operand δ K) (scale : Option (Nd.Arr K))
  | datas (d : DataArray δ K) (axis : Option (Option AxisArg)) (dim : Option (Option δ))
  | datasPlain (d : Nd.Arr K) (z : ℤ) (mom : Option (List ℤ))

/-- The object after one call. -/
def runPushX (val : List K → V) (core : Nd.Core K M) (fam : List ℕ → Kernel K V M) (moms : List δ)
    (obj : DataArray δ (Option K)) : PushX δ K → Py (DataArray δ (Option K))
  | .val x w ys => pushValX val core fam moms obj x w ys
  | .vals x w ys axis dim => pushValsX val core fam moms obj x w ys axis dim
  | .valsPlain x w ys z => pushValsPlainX val core fam moms obj x w ys (.int z)
  | .data d scale => pushDataX core fam moms obj d scale
  | .datas d axis dim => pushDatasX core fam moms obj d axis dim
  | .datasPlain d z mom => pushDatasPlainX core fam moms obj d (.int z) mom

/-- The object after a sequence of calls, all of which have to succeed. -/
def runPushesX (val : List K → V) (core : Nd.Core K M) (fam : List ℕ → Kernel K V M)
    (moms : List δ) : List (PushX δ K) → DataArray δ (Option K) → Py (DataArray δ (Option K))
  | [], obj => .ok obj
  | c :: cs, obj => (runPushX val core fam moms obj c).bind (runPushesX val core fam moms cs)

end Cmomy.Labelled
