import Verif.Model.Errors
import Mathlib.Data.List.Basic
import Mathlib.Data.List.Sort
import Mathlib.Data.Rat.Defs
import Mathlib.Algebra.Order.Ring.Int

/-!
# Axis arguments

`core/array_utils.py:47-142`.
-/

namespace Cmomy.Axes

/-- What a caller may pass as one axis: an integer, a float, or a complex number (`1j` counts axes
relative to the value dimensions). -/
inductive AxisArg
  | int (z : ℤ)
  | float
  | complex (re im : ℚ)
deriving DecidableEq

/-- `int(x)` of a float: towards zero. -/
def truncate (x : ℚ) : ℤ := x.num.tdiv x.den

/-- Contract of numpy's `normalize_axis_index(axis, ndim)` on integers. `ndim` may be negative here
(more moment dimensions than dimensions). The returned axes are never negative and are kept as `ℕ`. -/
def npNormalize (axis ndim : ℤ) : Py ℕ :=
  if axis < -ndim ∨ ndim ≤ axis then .error .axisError
  else if axis < 0 then .ok (axis + ndim).toNat
  else .ok axis.toNat

/-- `core/array_utils.py:47-64` `normalize_axis_index(axis, ndim, mom_ndim)`. numpy refuses floats
with `TypeError`. -/
def normalizeAxisIndex (axis : AxisArg) (ndim : ℕ) (momNdim : Option ℕ) : Py ℕ :=
  match axis with
  | .complex _ im =>
    npNormalize (truncate im) (match momNdim with
      | some m => (ndim : ℤ) - m
      | none => ndim)
  | .float => .error .typeError
  | .int z => npNormalize z ndim

/-- What a caller may pass as several axes. -/
inductive AxesArg
  | all
  | one (a : AxisArg)
  | many (as : List AxisArg)

/-- `core/array_utils.py:81-89`: normalise each, then look for repeats. The generator is consumed
from the left, so the first bad axis decides the exception. -/
def normalizeAxes (as : List AxisArg) (ndim : ℕ) (momNdim : Option ℕ) (allowDuplicate : Bool) :
    Py (List ℕ) :=
  (as.mapM (fun a => normalizeAxisIndex a ndim momNdim)).bind fun out =>
    if !allowDuplicate && !decide out.Nodup then .error .valueError else .ok out

/-- `core/array_utils.py:67-89` `normalize_axis_tuple(axis, ndim, mom_ndim, allow_duplicate)`;
`all` is `axis=None`. `range` of a negative number is empty. -/
def normalizeAxisTuple (axis : AxesArg) (ndim : ℕ) (momNdim : Option ℕ) (allowDuplicate : Bool) :
    Py (List ℕ) :=
  match axis with
  | .all => .ok (List.range (match momNdim with
      | some m => ndim - m
      | none => ndim))
  | .one a => normalizeAxes [a] ndim momNdim allowDuplicate
  | .many as => normalizeAxes as ndim momNdim allowDuplicate

/-- Python `l.insert(i, x)` for `i ≥ 0`: past the end it appends. -/
def pyInsert (l : List ℕ) (i : ℕ) (x : ℕ) : List ℕ := l.insertIdx (min i l.length) x

/-- Order of Python tuples, used by `sorted(zip(destination, source))`. -/
def pairLe (p q : ℕ × ℕ) : Prop := p.1 < q.1 ∨ (p.1 = q.1 ∧ p.2 ≤ q.2)

instance : DecidableRel pairLe := fun p q => by unfold pairLe; infer_instance

/-- `core/array_utils.py:114-122`, after normalisation. -/
def moveaxisCore (ndim : ℕ) (source destination : List ℕ) : Py (List ℕ) :=
  if source.length ≠ destination.length then .error .valueError
  else
    .ok (((destination.zip source).insertionSort pairLe).foldl
      (fun order p => pyInsert order p.1 p.2) ((List.range ndim).filter (fun n => n ∉ source)))

/-- `core/array_utils.py:92-122` `moveaxis_order(ndim, source, destination)` with
`normalize=True`. -/
def moveaxisOrder (ndim : ℕ) (source destination : List AxisArg) : Py (List ℕ) :=
  (normalizeAxisTuple (.many source) ndim none false).bind fun s =>
  (normalizeAxisTuple (.many destination) ndim none false).bind fun d =>
  moveaxisCore ndim s d

/-- `core/array_utils.py:125-142` `positive_to_negative_index(index, ndim)`. -/
def positiveToNegative (index ndim : ℤ) : ℤ := if index < 0 then index else index - ndim

end Cmomy.Axes
