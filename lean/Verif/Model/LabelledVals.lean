import Verif.Model.LabelledNd
import Verif.Model.ValsOps

/-!
# Labelled values and weights

The `DataArray` branches of `reduce_vals`, `resample_vals`, `jackknife_vals`, `rolling_vals` and
`rolling_exp_vals`, for `out=None`. Weight and further values may be labelled or plain arrays.
`apply_ufunc` is modelled by its contract, see `Model/LabelledNd.lean`. Coordinates, attributes, data
types, dask and `Dataset` are not modelled.
-/

namespace Cmomy.Labelled

open Axes

variable {δ : Type} [DecidableEq δ] {α β : Type}

/-- What may be passed as a weight or as further values. -/
inductive Operand (δ α : Type)
  | named (y : DataArray δ α)
  | plain (a : Nd.Arr α)

/-- Names and sizes, if any. -/
def Operand.frame? : Operand δ α → Option (Frame δ)
  | .named y => some y.frame
  | .plain _ => none

/-- What `apply_ufunc` hands on for an input with core dimension `dim`. -/
def Operand.arrange (loop : List δ) (dim : δ) : Operand δ α → Py (Nd.Arr α)
  | .named y => compatData y loop [dim]
  | .plain a => .ok a

/-- `apply_ufunc(f, *ops, …, input_core_dims=[[dim], …, …], output_core_dims=[outCore])`; `extra` are
names and sizes of further labelled inputs, `extraCore` the core dimensions of further inputs, which
`f` deals with itself. -/
def applyVals (ops : List (Operand δ α)) (extra : List (Frame δ)) (dim : δ)
    (extraCore outCore : List δ) (f : List δ → List (Nd.Arr α) → Py (Nd.Arr β)) :
    Py (DataArray δ β) :=
  let frames := ops.filterMap Operand.frame? ++ extra
  (loopDims frames [] (dim :: extraCore ++ outCore)).bind fun loop =>
  (ops.mapM (Operand.arrange loop dim)).bind fun as =>
  (f loop as).bind fun out =>
  wrapResult frames [] (loop ++ outCore) out

variable {K V M : Type} [Field K] [DecidableEq K]

/-- `core/prepare.py:237-256` `xprepare_secondary_value_for_reduction`: labelled arrays are taken as
they are. -/
def xprepareSecondary (axisNeg : ℤ) (nsamp : ℕ) (o : Operand δ K) : Py (Operand δ K) :=
  match o with
  | .named y => .ok (.named y)
  | .plain a => (Nd.prepareSecondary a axisNeg nsamp true).map .plain

/-- `core/prepare.py:178-234` `xprepare_values_for_reduction`: the sample dimension and the arrays.
The moment dimensions are not known to `default_mom_params_xarray`. -/
def xprepareValues (x : DataArray δ K) (others : List (Operand δ K)) (narrays : ℕ)
    (axis : Option (Option AxisArg)) (dim : Option (Option δ)) : Py (δ × List (Operand δ K)) :=
  if others.length + 1 ≠ narrays then .error .valueError
  else
    (selectAxisDim x.dims [] axis dim none none false).bind fun sd =>
    (others.mapM (xprepareSecondary (positiveToNegative sd.1 x.dims.length) (x.size sd.2))).bind
      fun os =>
    .ok (sd.2, .named x :: os)

/-- The first array and the others. -/
def split (f : Nd.Arr α → List (Nd.Arr α) → Py (Nd.Arr β)) (as : List (Nd.Arr α)) : Py (Nd.Arr β) :=
  match as with
  | a :: os => f a os
  | [] => .error .typeError

/-- `reduction.py:210-254` `reduce_vals`, `DataArray` branch; `others` are the weight and the further
values, `moms` the moment dimensions. -/
def reduceValsX (val : List K → V) (core : Nd.Core K M) (fam : List ℕ → Kernel K V M)
    (mom : List ℕ) (moms : List δ) (x : DataArray δ K) (others : List (Operand δ K))
    (axis : Option (Option AxisArg)) (dim : Option (Option δ)) : Py (DataArray δ (Option K)) :=
  (xprepareValues x others (core.nd + 1) axis dim).bind fun p =>
  applyVals p.2 [] p.1 [] moms (fun _ => split fun a os =>
    Nd.reduceValsFrom val core fam mom (Nd.axesLast core.nd) (-1) a os)

/-- `resample/resample.py:478-548` `resample_vals`, `DataArray` branch, for a table `freq` without
names. -/
def resampleValsX (val : List K → V) (core : Nd.Core K M) (fam : List ℕ → Kernel K V M)
    (mom : List ℕ) (moms : List δ) (freq : List (List K)) (nsamp : ℕ) (x : DataArray δ K)
    (others : List (Operand δ K)) (axis : Option (Option AxisArg)) (dim : Option (Option δ))
    (rep : δ) (orderCF axesToEnd : Bool) : Py (DataArray δ (Option K)) :=
  (xprepareValues x others (core.nd + 1) axis dim).bind fun p =>
  (applyVals p.2 [] p.1 [rep, p.1] (rep :: moms) (fun _ => split fun a os =>
    Nd.resampleValsFrom val core fam mom (Nd.axesLast core.nd) freq nsamp (-1) a os orderCF)).bind
    fun y =>
  y.step (fun z => valsDims z x.dims [(p.1, rep)] rep moms axesToEnd false)

/-- `resample/resample.py:1073-1156` `jackknife_vals`, `DataArray` branch, with `data_reduced=None`;
`rep` is the new name, if any. -/
def jackknifeValsX (val : List K → V) (core : Nd.Core K M) (fam : List ℕ → Kernel K V M)
    (mom : List ℕ) (moms : List δ) (x : DataArray δ K) (others : List (Operand δ K))
    (axis : Option (Option AxisArg)) (dim : Option (Option δ)) (rep : Option δ)
    (orderCF axesToEnd : Bool) : Py (DataArray δ (Option K)) :=
  (reduceValsX val core fam mom moms x others axis dim).bind fun reduced =>
  (xprepareValues x others (core.nd + 1) axis dim).bind fun p =>
  (applyVals p.2 [reduced.frame] p.1 moms (p.1 :: moms) (fun loop => split fun a os =>
    (compatData reduced loop moms).bind fun r =>
    Nd.jackknifeValsFrom val core fam mom (Nd.axesLast core.nd) r (-1) a os orderCF)).bind fun y =>
  (y.step (fun z => valsDims z x.dims [] p.1 moms axesToEnd false)).bind fun z =>
  match rep with
  | none => .ok z
  | some g => z.rename p.1 g

section Ordered

variable {K V M : Type} [Field K] [LinearOrder K] [IsStrictOrderedRing K]

/-- `rolling.py:694-754` `rolling_vals`, `DataArray` branch, for `1 ≤ window`. -/
def rollingValsX (val : List K → V) (core : Nd.Core K M) (fam : List ℕ → Kernel K V M)
    (mom : List ℕ) (moms : List δ) (window : ℕ) (minPeriods : Option ℤ) (center zeroMissing : Bool)
    (x : DataArray δ K) (others : List (Operand δ K)) (axis : Option (Option AxisArg))
    (dim : Option (Option δ)) (orderCF axesToEnd : Bool) : Py (DataArray δ (Option K)) :=
  (xprepareValues x others (core.nd + 1) axis dim).bind fun p =>
  (applyVals p.2 [] p.1 [] (p.1 :: moms) (fun _ => split fun a os =>
    Nd.rollingValsFrom val core fam mom (Nd.axesLast core.nd) window minPeriods center zeroMissing
      (-1) a os orderCF)).bind fun y =>
  y.step (fun z => valsDims z x.dims [] p.1 moms axesToEnd false)

/-- `rolling.py:1295-1356` `rolling_exp_vals`, `DataArray` branch. -/
def rollingExpValsX (val : List K → V) (core : Nd.Core K M) (fam : List ℕ → Kernel K V M)
    (mom : List ℕ) (moms : List δ) (adjust : Bool) (minPeriods : Option ℤ) (zeroMissing : Bool)
    (x : DataArray δ K) (w alpha : Operand δ K) (ys : List (Operand δ K))
    (axis : Option (Option AxisArg)) (dim : Option (Option δ)) (orderCF axesToEnd : Bool) :
    Py (DataArray δ (Option K)) :=
  (xprepareValues x (w :: alpha :: ys) (core.nd + 2) axis dim).bind fun p =>
  (applyVals p.2 [] p.1 [] (p.1 :: moms) (fun _ => split fun a os =>
    Nd.rollingExpValsFrom val core fam mom (Nd.axesLast core.nd) adjust minPeriods zeroMissing
      (-1) a os orderCF)).bind fun y =>
  y.step (fun z => valsDims z x.dims [] p.1 moms axesToEnd false)

end Ordered

end Cmomy.Labelled
