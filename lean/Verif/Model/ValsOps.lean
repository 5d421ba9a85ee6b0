import Verif.Model.AxisOps
import Verif.Model.Validate

/-!
# Values and weights of any shape

The array branches of `reduce_vals`, `resample_vals`, `jackknife_vals`, `rolling_vals` and
`rolling_exp_vals`, for `out=None`: preparation of the value and weight arrays, allocation of the
result and the call of the gufunc. Data types and `casting` are not modelled.
-/

namespace Cmomy.Nd

open Axes

variable {K V M : Type*} [Field K] [DecidableEq K]

/-- `core/prepare.py:130-175` `prepare_secondary_value_for_reduction`: `axis` is counted from the
end of the primary array. -/
def prepareSecondary (a : Arr K) (axis : ℤ) (nsamp : ℕ) (axesToEnd : Bool) : Py (Arr K) :=
  if a.shape.length = 0 then .ok ⟨[nsamp], fun _ => a.get (fun _ => 0)⟩
  else
    (if a.shape.length = 1 then .ok (-1, a)
      else if axesToEnd = true ∧ axis ≠ -1 then
        (a.moveaxisInt [axis] [-1]).map (fun b => ((-1 : ℤ), b))
      else .ok (axis, a)).bind fun c =>
    (Validate.pyGet c.2.shape c.1).bind fun d =>
    if d ≠ nsamp then .error .valueError else .ok c.2

/-- `core/prepare.py:83-127` `prepare_values_for_reduction(target, *args, narrays=, axis=,
axes_to_end=)`. -/
def prepareValues (x : Arr K) (others : List (Arr K)) (narrays : ℕ) (axis : AxisArg)
    (axesToEnd : Bool) : Py (ℤ × Arr K × List (Arr K)) :=
  if others.length + 1 ≠ narrays then .error .valueError
  else
    (normalizeAxisIndex axis x.shape.length none).bind fun ax =>
    let nsamp := x.shape.getD ax 0
    let axisNeg := positiveToNegative ax x.shape.length
    (if axesToEnd = true ∧ axisNeg ≠ -1 then x.moveaxisInt [axisNeg] [-1] else .ok x).bind fun t =>
    (others.mapM (fun a => prepareSecondary a axisNeg nsamp axesToEnd)).bind fun os =>
    .ok (if axesToEnd then -1 else axisNeg, t, os)

/-- `core/array_utils.py:145-147` `get_axes_from_values`, for one array. -/
def axisOfValue (a : Arr K) (axisNeg : ℤ) : ℤ := if a.shape.length = 1 then -1 else axisNeg

/-- `core/prepare.py:356-396` `prepare_out_from_values(None, *args, mom, axis_neg, axis_new_size,
order)`: the shape of the new array. -/
def outFromValues (x : Arr K) (others : List (Arr K)) (mom : List ℕ) (axisNeg : ℤ)
    (newSize : Option ℕ) (orderCF : Bool) : Py (List ℕ) :=
  (broadcastShapes (x.shape ::
    (others.filter (fun a => 1 < a.shape.length)).map Arr.shape)).bind fun shape =>
  let momShape := mom.map (· + 1)
  (normalizeAxisIndex (.int axisNeg) shape.length none).bind fun ax =>
  match newSize with
  | none => .ok (shape.take ax ++ shape.drop (ax + 1) ++ momShape)
  | some r =>
    if axisNeg = -1 ∨ orderCF = true then .ok (shape.take ax ++ r :: shape.drop (ax + 1) ++ momShape)
    else ((⟨shape.take ax ++ shape.drop (ax + 1) ++ r :: momShape, fun _ => ()⟩ : Arr Unit).moveaxisInt
      [-((mom.length : ℤ) + 1)] [(ax : ℤ)]).map Arr.shape

/-- An operand with the single core dimension `sample` on axis `op.2`. -/
def sampleOperand (op : Arr K × ℤ) : Py (Arr K × ℕ) :=
  (coreAxes op.1.shape.length [op.2]).map (fun cs => (op.1, cs.headD 0))

/-- Size of the core dimension of such an operand. -/
def sampleSize (op : Arr K × ℕ) : ℕ := op.1.shape.getD op.2 0

/-- The operands of a call, their core axes found; all have to have `n` samples. -/
def sampleOperands (ops : List (Arr K × ℤ)) (n : ℕ) : Py (List (Arr K × ℕ)) :=
  (ops.mapM sampleOperand).bind fun os =>
  if os.all (fun o => sampleSize o = n) then .ok os else .error .valueError

/-- A gufunc that fills a given array of shape `outShape` whose core dimensions are on `outAxes`.
`extra` are the loop shapes of operands that have been dealt with separately. The first core
dimension of the result has to have `rows` entries, if given. NumPy refuses to broadcast an array
it writes to. `f sizes L l ops c` is what the kernel writes at core index `c`, `sizes` being the
core sizes of the result. -/
def fillVals (outShape : List ℕ) (outAxes : List ℤ) (rows : Option ℕ) (extra : List (List ℕ))
    (ops : List (Arr K × ℕ))
    (f : List ℕ → ℕ → (ℕ → ℕ) → List (Arr K × ℕ) → List ℕ → Option K) : Py (Arr (Option K)) :=
  (coreAxes outShape.length outAxes).bind fun ocs =>
  let sizes := ocs.map (fun a => outShape.getD a 0)
  let outLoop := (loopAxes outShape.length ocs).map (fun a => outShape.getD a 0)
  if (rows.getD (sizes.headD 0)) ≠ sizes.headD 0 then .error .valueError
  else
    (broadcastShapes (outLoop :: extra ++ ops.map (fun o => o.1.loopShape [o.2]))).bind fun loop =>
    if loop ≠ outLoop then .error (widenError loop outLoop)
    else .ok ⟨outShape, fun i => f sizes loop.length
      (fun q => ((loopAxes outShape.length ocs)[q]?.map i).getD 0) ops (ocs.map i)⟩

/-- The value pushed for one sample, from `x` and the `y`: one value, `mom_ndim = 1`. -/
def value1 (v : List K) : K := v.headD 0

/-- Two values, `mom_ndim = 2`. -/
def value2 (v : List K) : K × K := (v.headD 0, v.tail.headD 0)

/-- The samples the kernel sees at a loop position; the operands are `x, weight, *y`. -/
def samplesAt (val : List K → V) (ops : List (Arr K × ℕ)) (n L : ℕ) (l : ℕ → ℕ) : List (V × K) :=
  match ops with
  | x :: w :: ys => (List.range n).map (fun s =>
      (val ((x :: ys).map (fun o => o.1.read [o.2] L l [s])), w.1.read [w.2] L l [s]))
  | _ => []

/-- The operands `x, weight, *y` with their axes. -/
def valueOperands (x : Arr K) (others : List (Arr K)) (axisNeg : ℤ) : List (Arr K × ℤ) :=
  (x :: others).map (fun a => (a, axisOfValue a axisNeg))

/-- The kernel for a given size of the moment dimension: it takes its order from the shape of the
array it fills, `_lib/_push.py:33`. -/
def family1 (sizes : List ℕ) : Kernel K K (Mom K) := kernel1 (sizes.headD 0 - 1)

/-- Two moment dimensions, `_lib/_push_cov.py:34-35`. -/
def family2 (sizes : List ℕ) : Kernel K (K × K) (Com K) :=
  kernel2 (sizes.headD 0 - 1) (sizes.tail.headD 0 - 1)

/-- `reduction.py:283-328` `_reduce_vals`. `fam` is the kernel for given sizes of the moment
dimensions; `others` are the weight and the further values. -/
def reduceValsFrom (val : List K → V) (core : Core K M) (fam : List ℕ → Kernel K V M)
    (mom : List ℕ) (momAxes : List ℤ) (axisNeg : ℤ) (x : Arr K) (others : List (Arr K)) :
    Py (Arr (Option K)) :=
  (outFromValues x others mom axisNeg none false).bind fun outShape =>
  let n := sizeOf x axisNeg
  (sampleOperands (valueOperands x others axisNeg) n).bind fun ops =>
  fillVals outShape momAxes none [] ops (fun sizes L l ops c =>
    ((fam sizes).reduceValsFromZero (samplesAt val ops n L l)).map (fun r => core.ent r c))

/-- `reduction.py:256-280` `reduce_vals`, array branch. -/
def reduceValsNd (val : List K → V) (core : Core K M) (fam : List ℕ → Kernel K V M)
    (mom : List ℕ) (momAxes : List ℤ) (x : Arr K) (others : List (Arr K)) (axis : AxisArg) :
    Py (Arr (Option K)) :=
  (prepareValues x others (core.nd + 1) axis false).bind fun p =>
  reduceValsFrom val core fam mom momAxes p.1 p.2.1 p.2.2

/-- `resample/resample.py:578-627` `_resample_vals`, with the table `freq` of the sampler, which has
`nsamp` columns. -/
def resampleValsFrom (val : List K → V) (core : Core K M) (fam : List ℕ → Kernel K V M)
    (mom : List ℕ) (momAxes : List ℤ) (freq : List (List K)) (nsamp : ℕ) (axisNeg : ℤ) (x : Arr K)
    (others : List (Arr K)) (orderCF : Bool) : Py (Arr (Option K)) :=
  (outFromValues x others mom axisNeg (some freq.length) orderCF).bind fun outShape =>
  (sampleOperands (valueOperands x others axisNeg) nsamp).bind fun ops =>
  fillVals outShape ((axisNeg - core.nd) :: momAxes) (some freq.length) [] ops
    (fun sizes L l ops c =>
      (((fam sizes.tail).resampleVals freq (samplesAt val ops nsamp L l))[c.headD 0]?).join.map
        (fun r => core.ent r c.tail))

/-- `resample/resample.py:551-575` `resample_vals`, array branch. -/
def resampleValsNd (val : List K → V) (core : Core K M) (fam : List ℕ → Kernel K V M)
    (mom : List ℕ) (momAxes : List ℤ) (freq : List (List K)) (nsamp : ℕ) (x : Arr K)
    (others : List (Arr K)) (axis : AxisArg) (orderCF axesToEnd : Bool) :
    Py (Arr (Option K)) :=
  (prepareValues x others (core.nd + 1) axis axesToEnd).bind fun p =>
  resampleValsFrom val core fam mom momAxes freq nsamp p.1 p.2.1 p.2.2 orderCF

/-- `resample/resample.py:1188-1245` `_jackknife_vals`: with a memory order the result is allocated
first, otherwise by the gufunc. -/
def jackknifeValsFrom (val : List K → V) (core : Core K M) (fam : List ℕ → Kernel K V M)
    (mom : List ℕ) (momAxes : List ℤ) (reduced : Arr (Option K)) (axisNeg : ℤ) (x : Arr K)
    (others : List (Arr K)) (orderCF : Bool) : Py (Arr (Option K)) :=
  if reduced.shape.drop (reduced.shape.length - core.nd) ≠ mom.map (· + 1) then .error .valueError
  else
    (coreAxes reduced.shape.length (axesLast core.nd)).bind fun rs =>
    let n := sizeOf x axisNeg
    (sampleOperands (valueOperands x others axisNeg) n).bind fun ops =>
    let f := fun (sizes : List ℕ) (L : ℕ) (l : ℕ → ℕ) (ops : List (Arr K × ℕ)) (c : List ℕ) =>
      (recordOpt core (reduced.read rs L l)).bind fun red =>
        (((fam sizes.tail).jackknifeValsKernel red (samplesAt val ops n L l))[c.headD 0]?).join.map
          (fun r => core.ent r c.tail)
    if orderCF then
      (outFromValues x others mom axisNeg (some n) true).bind fun outShape =>
      fillVals outShape ((axisNeg - core.nd) :: momAxes) (some n) [reduced.loopShape rs] ops f
    else
      (broadcastShapes (reduced.loopShape rs :: ops.map (fun o => o.1.loopShape [o.2]))).bind
        fun loop =>
      (coreAxes (loop.length + (core.nd + 1)) ((axisNeg - core.nd) :: momAxes)).bind fun ocs =>
      .ok (place loop ocs (n :: mom.map (· + 1)) (fun l c =>
        f (n :: mom.map (· + 1)) loop.length l ops c))

/-- `resample/resample.py:1073-1185` `jackknife_vals`, array branch, with `data_reduced=None`. -/
def jackknifeValsNd (val : List K → V) (core : Core K M) (fam : List ℕ → Kernel K V M)
    (mom : List ℕ) (momAxes : List ℤ) (x : Arr K) (others : List (Arr K)) (axis : AxisArg)
    (orderCF axesToEnd : Bool) : Py (Arr (Option K)) :=
  (reduceValsNd val core fam mom momAxes x others axis).bind fun reduced =>
  (prepareValues x others (core.nd + 1) axis axesToEnd).bind fun p =>
  jackknifeValsFrom val core fam mom momAxes reduced p.1 p.2.1 p.2.2 orderCF

section Ordered

variable {K V M : Type*} [Field K] [LinearOrder K] [IsStrictOrderedRing K]

/-- `rolling.py:787-856` `_rolling_vals`, for `1 ≤ window`. -/
def rollingValsFrom (val : List K → V) (core : Core K M) (fam : List ℕ → Kernel K V M)
    (mom : List ℕ) (momAxes : List ℤ) (window : ℕ) (minPeriods : Option ℤ)
    (center zeroMissing : Bool) (axisNeg : ℤ) (x : Arr K) (others : List (Arr K))
    (orderCF : Bool) : Py (Arr (Option K)) :=
  let pad := if center then (-Kernel.centerShift window).toNat else 0
  let padded := fun a : Arr K =>
    if center then padAxis a (pyIdx a.shape.length (axisOfValue a axisNeg)) pad else a
  let x' := padded x
  let others' := others.map padded
  let n := sizeOf x' axisNeg
  (outFromValues x' others' mom axisNeg (some n) orderCF).bind fun outShape =>
  (sampleOperands (valueOperands x' others' axisNeg) n).bind fun ops =>
  (fillVals outShape ((axisNeg - core.nd) :: momAxes) (some n) [] ops (fun sizes L l ops c =>
    (((fam sizes.tail).rollingValsKernel window (max (minPeriods.getD window) 1)
      (samplesAt val ops n L l)).bind (fun rows => (rows[c.headD 0]?).join)).map
      (fun r => core.ent r c.tail))).map fun out =>
  zeroMissingWeight (momAxes.map (pyIdx out.shape.length)) zeroMissing
    (if center then dropAxis out (pyIdx out.shape.length (axisNeg - core.nd)) pad else out)

/-- `rolling.py:756-784` `rolling_vals`, array branch, for `1 ≤ window`. -/
def rollingValsNd (val : List K → V) (core : Core K M) (fam : List ℕ → Kernel K V M)
    (mom : List ℕ) (momAxes : List ℤ) (window : ℕ) (minPeriods : Option ℤ)
    (center zeroMissing : Bool) (x : Arr K) (others : List (Arr K)) (axis : AxisArg)
    (orderCF axesToEnd : Bool) : Py (Arr (Option K)) :=
  (prepareValues x others (core.nd + 1) axis axesToEnd).bind fun p =>
  rollingValsFrom val core fam mom momAxes window minPeriods center zeroMissing p.1 p.2.1 p.2.2
    orderCF

/-- `rolling.py:1388-1450` `_rolling_exp_vals`; the arrays are `x, weight, alpha, *y`. -/
def rollingExpValsFrom (val : List K → V) (core : Core K M) (fam : List ℕ → Kernel K V M)
    (mom : List ℕ) (momAxes : List ℤ) (adjust : Bool) (minPeriods : Option ℤ) (zeroMissing : Bool)
    (axisNeg : ℤ) (x : Arr K) (others : List (Arr K)) (orderCF : Bool) : Py (Arr (Option K)) :=
  match others with
  | w :: alpha :: ys =>
    let n := sizeOf x axisNeg
    (outFromValues x (w :: ys) mom axisNeg (some n) orderCF).bind fun outShape =>
    (sampleOperands [(alpha, axisOfValue alpha axisNeg)] n).bind fun al =>
    (sampleOperands (valueOperands x (w :: ys) axisNeg) n).bind fun ops =>
    (fillVals outShape ((axisNeg - core.nd) :: momAxes) (some n)
      (al.map (fun o => o.1.loopShape [o.2])) ops (fun sizes L l ops c =>
        (((fam sizes.tail).rollingExpVals adjust minPeriods
          ((List.range n).map (fun s => (al.map (fun o => o.1.read [o.2] L l [s])).headD 0))
          (samplesAt val ops n L l)).bind (fun rows => (rows[c.headD 0]?).join)).map
          (fun r => core.ent r c.tail))).map fun out =>
    zeroMissingWeight (momAxes.map (pyIdx out.shape.length)) zeroMissing out
  | _ => .error .valueError

/-- `rolling.py:1358-1385` `rolling_exp_vals`, array branch. -/
def rollingExpValsNd (val : List K → V) (core : Core K M) (fam : List ℕ → Kernel K V M)
    (mom : List ℕ) (momAxes : List ℤ) (adjust : Bool) (minPeriods : Option ℤ) (zeroMissing : Bool)
    (x w alpha : Arr K) (ys : List (Arr K)) (axis : AxisArg) (orderCF axesToEnd : Bool) :
    Py (Arr (Option K)) :=
  (prepareValues x (w :: alpha :: ys) (core.nd + 2) axis axesToEnd).bind fun p =>
  rollingExpValsFrom val core fam mom momAxes adjust minPeriods zeroMissing p.1 p.2.1 p.2.2 orderCF

end Ordered

end Cmomy.Nd
