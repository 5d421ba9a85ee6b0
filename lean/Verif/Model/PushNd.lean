import Verif.Model.ValsOps

/-!
# Pushing onto an array object of any shape

`CentralMomentsArray`: `zeros`, `push_val`, `push_vals`, `push_data` and
`push_datas`. An object is its array; the moment axes are last
(`wrapper/wrap_np.py:136-178`, modelled as `Validate.construct`). A record is `none` in every entry
once a division by zero took place in it, and stays so. Data types and `casting` are not modelled,
nor is an argument that shares memory with the object.
-/

namespace Cmomy.Nd

open Axes

variable {K V M : Type*} [Field K] [DecidableEq K]

/-- The core axes of an operand of a gufunc called without `axes`: the last `m` axes. -/
def lastAxes (n m : ℕ) : Py (List ℕ) :=
  if n < m then .error .valueError else .ok ((List.range m).map (fun j => n - m + j))

/-- A gufunc without outputs that updates the array `obj`, whose core dimensions are its last axes.
`want` are the sizes of the core dimensions as seen by other operands, `extra` the loop shapes of the
other operands. `f sizes L l r` is what becomes of the record `r` at loop position `l`. -/
def pushInto (core : Core K M) (obj : Arr (Option K)) (want : Option (List ℕ))
    (extra : List (List ℕ)) (f : List ℕ → ℕ → (ℕ → ℕ) → M → Option M) : Py (Arr (Option K)) :=
  (lastAxes obj.shape.length core.nd).bind fun ocs =>
  let sizes := ocs.map (fun a => obj.shape.getD a 0)
  if want.getD sizes ≠ sizes then .error .valueError
  else
    let outLoop := obj.loopShape ocs
    (broadcastShapes (outLoop :: extra)).bind fun loop =>
    if loop ≠ outLoop then .error (widenError loop outLoop)
    else .ok ⟨obj.shape, fun i =>
      let l := fun q => ((loopAxes obj.shape.length ocs)[q]?.map i).getD 0
      ((recordOpt core (obj.read ocs loop.length l)).bind (f sizes loop.length l)).map
        (fun r => core.ent r (ocs.map i))⟩

/-- `wrapper/wrap_np.py:463-517` `push_val`, kernels `_lib/push.py:23-36`, `_lib/push_cov.py:23-37`;
`_check_y` at `wrapper/wrap_abc.py:351-355`. -/
def pushValNd (val : List K → V) (core : Core K M) (fam : List ℕ → Kernel K V M)
    (obj : Arr (Option K)) (x w : Arr K) (ys : List (Arr K)) : Py (Arr (Option K)) :=
  if ys.length ≠ core.nd - 1 then .error .valueError
  else pushInto core obj none ((x :: w :: ys).map (fun a => a.loopShape [])) (fun sizes L l r =>
    (fam sizes).pushVal (val ((x :: ys).map (fun a => a.read [] L l []))) (w.read [] L l []) r)

/-- `wrapper/wrap_np.py:520-576` `push_vals`, kernels `_lib/push.py:38-51`,
`_lib/push_cov.py:39-53`: the values are prepared with `axes_to_end=True`, the gufunc is called without
`axes`. -/
def pushValsNd (val : List K → V) (core : Core K M) (fam : List ℕ → Kernel K V M)
    (obj : Arr (Option K)) (x w : Arr K) (ys : List (Arr K)) (axis : AxisArg) :
    Py (Arr (Option K)) :=
  (prepareValues x (w :: ys) (core.nd + 1) axis true).bind fun p =>
  let n := sizeOf p.2.1 (-1)
  (sampleOperands ((p.2.1 :: p.2.2).map (fun a => (a, -1))) n).bind fun ops =>
  pushInto core obj none (ops.map (fun o => o.1.loopShape [o.2])) (fun sizes L l r =>
    (fam sizes).reduceVals (samplesAt val ops n L l) r)

/-- `wrapper/wrap_np.py:364-412` `push_data`, kernels `_lib/push.py:54-63, 77-86`,
`_lib/push_cov.py:56-65, 79-88`. -/
def pushDataNd (core : Core K M) (fam : List ℕ → Kernel K V M) (obj : Arr (Option K))
    (data : Arr K) (scale : Option (Arr K)) : Py (Arr (Option K)) :=
  (lastAxes data.shape.length core.nd).bind fun cs =>
  let sizes := cs.map (fun a => data.shape.getD a 0)
  match scale with
  | none => pushInto core obj (some sizes) [data.loopShape cs] (fun sizes L l r =>
      (fam sizes).pushData (core.recd (data.read cs L l)) r)
  | some c => pushInto core obj (some sizes) [data.loopShape cs, c.loopShape []]
      (fun sizes L l r =>
        (fam sizes).pushScale (core.recd (data.read cs L l)) (c.read [] L l []) r)

/-- `wrapper/wrap_np.py:415-460` `push_datas`, kernels `_lib/push.py:65-74`,
`_lib/push_cov.py:67-76`; `mom_axes` defaults to the last axes
(`core/moment_params.py:205-226` `MomParamsArray.from_params`). -/
def pushDatasNd (core : Core K M) (fam : List ℕ → Kernel K V M) (obj : Arr (Option K))
    (datas : Arr K) (axis : AxisArg) (momAxes : Option (List ℤ)) : Py (Arr (Option K)) :=
  if (momAxes.getD (axesLast core.nd)).length ≠ core.nd then .error .valueError
  else
    (prepareData datas axis (momAxes.getD (axesLast core.nd)) core.nd true).bind fun p =>
    (coreAxes p.2.2.shape.length (p.1 :: axesLast core.nd)).bind fun cs =>
    pushInto core obj (some (cs.tail.map (fun a => p.2.2.shape.getD a 0)))
      [p.2.2.loopShape cs] (fun sizes L l r =>
        (fam sizes).reduceData (recordsAt core p.2.2 cs L l) r)

/-- A call of one of the four methods. -/
inductive PushCmd (K : Type*)
  | val (x w : Arr K) (ys : List (Arr K))
  | vals (x w : Arr K) (ys : List (Arr K)) (z : ℤ)
  | data (d : Arr K) (scale : Option (Arr K))
  | datas (d : Arr K) (z : ℤ) (mom : Option (List ℤ))

/-- The object after one call. -/
def runPush (val : List K → V) (core : Core K M) (fam : List ℕ → Kernel K V M)
    (obj : Arr (Option K)) : PushCmd K → Py (Arr (Option K))
  | .val x w ys => pushValNd val core fam obj x w ys
  | .vals x w ys z => pushValsNd val core fam obj x w ys (.int z)
  | .data d scale => pushDataNd core fam obj d scale
  | .datas d z mom => pushDatasNd core fam obj d (.int z) mom

/-- The object after a sequence of calls, all of which have to succeed. -/
def runPushes (val : List K → V) (core : Core K M) (fam : List ℕ → Kernel K V M) :
    List (PushCmd K) → Arr (Option K) → Py (Arr (Option K))
  | [], obj => .ok obj
  | c :: cs, obj => (runPush val core fam obj c).bind (runPushes val core fam cs)

/-- `wrapper/wrap_np.py:936-964` `zeros(mom=, val_shape=)`: `np.zeros((*val_shape, *mom_shape))`. -/
def zerosNd (valShape mom : List ℕ) : Arr (Option K) :=
  ⟨valShape ++ mom.map (· + 1), fun _ => some 0⟩

end Cmomy.Nd
