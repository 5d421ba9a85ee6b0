import Verif.Model.NdArray

/-!
# Validation of moment parameters

`core/validate.py:72-128`, `178-195`, `222-282`, `core/utils.py:86-94`,
`core/moment_params.py:109-112`, `173-252`, `334-337`, `wrapper/wrap_np.py:148-178`,
`wrapper/wrap_abc.py:99-117`.

Integers are unbounded. An `int` argument and any iterable of integers are told apart; other
argument types are not modelled, except for dimension names.
-/

namespace Cmomy.Validate

open Axes Nd

/-- An argument that may be an integer or an iterable of integers. -/
inductive IntArg
  | int (z : ℤ)
  | seq (l : List ℤ)
deriving DecidableEq

/-- The tuple made of it, `validate.py:104-107` and `118-122`. -/
def IntArg.tuple : IntArg → List ℤ
  | .int z => [z]
  | .seq l => l

/-- `validate.py:77-79` `is_mom_tuple` -/
def isMomTuple (mom : List ℤ) : Bool :=
  (mom.length == 1 || mom.length == 2) && mom.all (fun m => decide (m > 0))

/-- `validate.py:96-113` `validate_mom` -/
def validateMom (mom : IntArg) : Py (List ℤ) :=
  if isMomTuple mom.tuple then .ok mom.tuple else .error .valueError

/-- `validate.py:82-93` `validate_mom_ndim`. The default is returned as it is. -/
def validateMomNdim (ndim dflt : Option ℤ) : Py ℤ :=
  if ndim = some 1 ∨ ndim = some 2 then .ok (ndim.getD 0)
  else
    match ndim, dflt with
    | none, some d => .ok d
    | _, _ => .error .valueError

/-- `validate.py:116-128` `validate_mom_axes` -/
def validateMomAxes : IntArg → Py (List ℤ)
  | .int z => .ok [z]
  | .seq l => if l.length = 1 ∨ l.length = 2 then .ok l else .error .valueError

/-- `core/utils.py:86-88` `mom_to_mom_shape` -/
def momToMomShape (mom : IntArg) : Py (List ℤ) := (validateMom mom).map (·.map (· + 1))

/-- `core/utils.py:92-94` `mom_shape_to_mom` -/
def momShapeToMom (shape : IntArg) : Py (List ℤ) := (validateMom shape).map (·.map (· - 1))

/-- `validate.py:178-195` `validate_mom_ndim_and_mom_axes` -/
def validateMomNdimAndMomAxes (ndim : Option ℤ) (axes : Option IntArg) (dflt : Option ℤ) :
    Py (ℤ × List ℤ) :=
  match axes with
  | none => (validateMomNdim ndim dflt).map fun n =>
      (n, (List.range n.toNat).map (fun i : ℕ => -n + i))
  | some a => (validateMomAxes a).bind fun axes =>
    match ndim with
    | none => .ok (axes.length, axes)
    | some n => if (axes.length : ℤ) ≠ n then .error .valueError else .ok (n, axes)

/-- `MomParamsArray`, `moment_params.py:183-196` -/
structure PArray where
  ndim : ℤ
  axes : List ℤ
deriving DecidableEq

/-- `moment_params.py:109-112` `_MOM_AXES_LAST[ndim]` -/
def axesLast (ndim : ℤ) : Py (List ℤ) :=
  if ndim = 1 then .ok [-1] else if ndim = 2 then .ok [-2, -1] else .error .keyError

/-- `moment_params.py:198-217` `MomParamsArray.from_params` -/
def fromParams (ndim : Option ℤ) (axes : Option IntArg) (dflt : Option ℤ) : Py PArray :=
  match axes with
  | none => (validateMomNdim ndim dflt).bind fun n => (axesLast n).map fun a => ⟨n, a⟩
  | some a => (validateMomAxes a).bind fun axes =>
    match ndim with
    | none => .ok ⟨axes.length, axes⟩
    | some n => if (axes.length : ℤ) ≠ n then .error .valueError else .ok ⟨n, axes⟩

/-- The `mom_params` argument: absent, a parameter object of the class asked for, or a mapping
(possibly from another parameter object through `asdict`). In a mapping a key may be missing
(`none`) or present with the value `None` (`some none`). -/
inductive Input (P δ : Type)
  | absent
  | obj (p : P)
  | dict (ndim : Option (Option ℤ)) (axes : Option (Option IntArg)) (dims : Option (Option δ))

/-- `moment_params.py:219-252` `MomParamsArray.factory` -/
def factory {δ : Type} (mp : Input PArray δ) (ndim : Option ℤ) (axes : Option IntArg)
    (dflt : Option ℤ) : Py PArray :=
  match mp with
  | .obj p =>
    match ndim with
    | some n => if p.ndim = n then .ok p else .error .assertion
    | none => .ok p
  | .absent => fromParams ndim axes dflt
  | .dict n a _ =>
    fromParams (if ndim.isSome then ndim else n.getD none) (a.getD axes) dflt

/-- Python `l[z]` -/
def pyGet {α : Type} (l : List α) (z : ℤ) : Py α :=
  let i := if z < 0 then z + l.length else z
  if i < 0 then .error .indexError
  else match l[i.toNat]? with
    | some x => .ok x
    | none => .error .indexError

/-- `moment_params.py:334-337` `MomParamsArray.get_mom(data)` -/
def getMom (shape : List ℕ) (axes : List ℤ) : Py (List ℤ) :=
  (axes.mapM (fun a => pyGet shape a)).bind fun l => momShapeToMom (.seq (l.map (fun n : ℕ => (n : ℤ))))

/-- `wrap_np.py:148-178` and `wrap_abc.py:99-117`: construction of an object around an array,
without `fastpath`. dtype checks are not modelled. -/
def construct {K δ : Type} (obj : Arr K) (mp : Input PArray δ) (ndim : Option ℤ) (axes : Option IntArg) :
    Py (Arr K × PArray) :=
  (factory mp ndim axes (some 1)).bind fun p =>
  match getMom obj.shape p.axes with
  | .error _ => .error .valueError
  | .ok _ =>
    (axesLast p.ndim).bind fun last =>
    (if p.axes ≠ last then
      (moveaxisOrder obj.shape.length (p.axes.map .int) (last.map .int)).map fun o =>
        (obj.transpose o, (⟨p.ndim, last⟩ : PArray))
    else .ok (obj, p)).bind fun r =>
    (getMom r.1.shape r.2.axes).bind fun mom =>
    if mom.any (fun m => decide (m ≤ 0)) then .error .valueError else .ok r

/-! ### Labelled arrays -/

/-- A `mom_dims` argument; `other` is anything that is not a string, tuple or list. -/
inductive DimsArg (δ : Type)
  | str (d : δ)
  | seq (l : List δ)
  | other (l : Option (List δ))

/-- The labelled array (or the first variable of a dataset) that names are taken from. -/
abbrev OutDims (δ : Type) := Option (List δ)

/-- `validate.py:222-254` `validate_mom_dims`; `mom0`, `mom1` stand for `"mom_0"`, `"mom_1"`. An
empty dataset is not modelled. -/
def validateMomDims {δ : Type} (mom0 mom1 : δ) (dims : Option (DimsArg δ)) (ndim : ℤ)
    (out : OutDims δ) (axes : Option (List ℤ)) : Py (List δ) :=
  match dims with
  | none =>
    match out with
    | some ds => (axes.getD ((List.range ndim.toNat).map (fun i : ℕ => -ndim + i))).mapM (fun a => pyGet ds a)
    | none => .ok (if ndim = 1 then [mom0] else [mom0, mom1])
  | some (.str d) => if (1 : ℤ) ≠ ndim then .error .valueError else .ok [d]
  | some (.seq l) => if (l.length : ℤ) ≠ ndim then .error .valueError else .ok l
  | some (.other _) => .error .typeError

/-- `validate.py:270-276`: names alone. `tuple(x)` of something not iterable is a `TypeError`. -/
def dimsAlone {δ : Type} : DimsArg δ → Py (List δ × ℤ)
  | .str d => .ok ([d], 1)
  | .seq l => (validateMomNdim (some l.length) none).map fun n => (l, n)
  | .other (some l) => (validateMomNdim (some l.length) none).map fun n => (l, n)
  | .other none => .error .typeError

/-- `validate.py:257-282` `validate_mom_dims_and_mom_ndim`. -/
def validateMomDimsAndMomNdim {δ : Type} (mom0 mom1 : δ) (dims : Option (DimsArg δ))
    (ndim : Option ℤ) (out : OutDims δ) (dflt : Option ℤ) (axes : Option IntArg) :
    Py (List δ × ℤ) :=
  if ndim.isSome ∨ axes.isSome then
    (validateMomNdimAndMomAxes ndim axes none).bind fun na =>
    (validateMomDims mom0 mom1 dims na.1 out (some na.2)).map fun ds => (ds, na.1)
  else
    match dims, dflt with
    | some d, _ => dimsAlone d
    | none, some n =>
      (validateMomNdimAndMomAxes (some n) none none).bind fun na =>
      (validateMomDims mom0 mom1 none na.1 out (some na.2)).map fun ds => (ds, na.1)
    | none, none => .error .valueError

end Cmomy.Validate
