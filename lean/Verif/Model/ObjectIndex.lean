import Verif.Model.ObjectOps
import Verif.Model.Validate

/-!
# Indexing, iterating and concatenating array objects

`CentralMomentsArray.__getitem__` and `__iter__` (`wrapper/wrap_np.py:191-210`) and `concat` for arrays and
array objects (`convert.py:928-1079`). What numpy does for `a[key]` and `np.concatenate` is stated here as a
contract. Of the keys, integers, slices, `...`, `None`, and one list of integers or booleans among slices
are modelled. Data types and memory sharing are not modelled.
-/

namespace Cmomy.ObjectIndex

open Nd Axes

/-- One entry of the key of `a[key]`; a key that is not a tuple is a tuple of one entry. -/
inductive Key
  | int (z : ℤ)
  | slice (start stop step : Option ℤ)
  | ellipsis
  | newaxis
  | list (l : List ℤ)
  | mask (l : List Bool)
deriving DecidableEq

/-- The entry takes up an axis of the array. -/
def Key.addresses : Key → Bool
  | .ellipsis => false
  | .newaxis => false
  | _ => true

/-- The entry is a list of integers or booleans. -/
def Key.advanced : Key → Bool
  | .list _ => true
  | .mask _ => true
  | _ => false

/-- The entry is an integer. -/
def Key.isInt : Key → Bool
  | .int _ => true
  | _ => false

/-- `:` -/
abbrev Key.full : Key := .slice none none none

/-- Python `slice(start, stop, step).indices(n)`, with the number of items in place of the stop. -/
def sliceIndices (n : ℕ) (start stop step : Option ℤ) : Py (ℤ × ℕ × ℤ) :=
  let c := step.getD 1
  if c = 0 then .error .valueError
  else
    let clip (z : ℤ) : ℤ :=
      if z < 0 then (if z + n < 0 then (if c < 0 then -1 else 0) else z + n)
      else if z ≥ n then (if c < 0 then n - 1 else n) else z
    let a := start.elim (if c < 0 then (n : ℤ) - 1 else 0) clip
    let b := stop.elim (if c < 0 then -1 else (n : ℤ)) clip
    let count : ℤ :=
      if c < 0 then (if b < a then (a - b - 1) / (-c) + 1 else 0)
      else (if a < b then (b - a - 1) / c + 1 else 0)
    .ok (a, count.toNat, c)

/-- The places where a list of booleans is true. -/
def truePlaces (l : List Bool) : List ℕ := (List.range l.length).filter (fun p => l.getD p false)

/-- The entries of the key, applied from left to right to axes of the given sizes: the sizes of the
result and, for an index of the result, the coordinates of the old axes. -/
def applyKeys : List Key → List ℕ → Py (List ℕ × ((ℕ → ℕ) → List ℕ))
  | [], [] => .ok ([], fun _ => [])
  | .newaxis :: ks, ds => (applyKeys ks ds).map fun r => (1 :: r.1, fun i => r.2 (fun a => i (a + 1)))
  | .int z :: ks, d :: ds =>
    if -(d : ℤ) ≤ z ∧ z < d then
      (applyKeys ks ds).map fun r => (r.1, fun i => pyIdx d z :: r.2 i)
    else .error .indexError
  | .slice start stop step :: ks, d :: ds =>
    (sliceIndices d start stop step).bind fun s =>
    (applyKeys ks ds).map fun r =>
      (s.2.1 :: r.1, fun i => (s.1 + i 0 * s.2.2).toNat :: r.2 (fun a => i (a + 1)))
  | .list l :: ks, d :: ds =>
    if ∀ z ∈ l, -(d : ℤ) ≤ z ∧ z < d then
      (applyKeys ks ds).map fun r =>
        (l.length :: r.1, fun i => pyIdx d (l.getD (i 0) 0) :: r.2 (fun a => i (a + 1)))
    else .error .indexError
  | .mask l :: ks, d :: ds =>
    if l.length = d then
      (applyKeys ks ds).map fun r =>
        ((truePlaces l).length :: r.1,
          fun i => (truePlaces l).getD (i 0) 0 :: r.2 (fun a => i (a + 1)))
    else .error .indexError
  | _, _ => .error .indexError

/-- The key with `...`, or what is missing at its end, replaced by `m` times `:`. -/
def expandWith (m : ℕ) (keys : List Key) : List Key :=
  if .ellipsis ∈ keys then
    keys.flatMap (fun k => if k = .ellipsis then List.replicate m .full else [k])
  else keys ++ List.replicate m .full

/-- Contract of numpy's `a[key]`. No claim is made for keys with a list and either an integer or a second
list. -/
def index {K : Type*} (a : Arr K) (keys : List Key) : Py (Arr K) :=
  if keys.countP Key.advanced > 1 ∨ (keys.countP Key.advanced = 1 ∧ 0 < keys.countP Key.isInt) then
    .error .undefined
  else if keys.count .ellipsis > 1 then .error .indexError
  else if keys.countP Key.addresses > a.shape.length then .error .indexError
  else
    (applyKeys (expandWith (a.shape.length - keys.countP Key.addresses) keys) a.shape).map fun r =>
      ⟨r.1, fun i => a.get (fun ax => (r.2 i).getD ax 0)⟩

/-- `wrapper/wrap_np.py:191-203` `c[key]`: the moment shape has to be that of the object. -/
def getitem {K : Type*} (d : ℕ) (obj : Arr K) (keys : List Key) : Py (Arr K) :=
  (index obj keys).bind fun out => ObjectOps.newLike d obj out

/-- `wrapper/wrap_np.py:208-210` `list(c)` -/
def iter {K : Type*} (d : ℕ) (obj : Arr K) : Py (List (Arr K)) :=
  (Validate.pyGet obj.shape 0).bind fun n =>
  (List.range n).mapM fun k : ℕ => getitem d obj [.int (k : ℤ)]

/-- The array in which position `p` of an axis falls, and its position there. -/
def findPart : List ℕ → ℕ → ℕ × ℕ
  | [], p => (0, p)
  | n :: ns, p => if p < n then (0, p) else ((findPart ns (p - n)).1 + 1, (findPart ns (p - n)).2)

/-- Contract of `np.concatenate(arrays, axis)` for an integer axis. An empty list of arrays is not
modelled. -/
def npConcat {K : Type*} (arrays : List (Arr K)) (axis : ℤ) : Py (Arr K) :=
  match arrays with
  | [] => .error .undefined
  | a :: _ =>
    let n := a.shape.length
    if n = 0 then .error .valueError
    else if ¬ (-(n : ℤ) ≤ axis ∧ axis < n) then .error .axisError
    else
      let ax := pyIdx n axis
      if ∃ b ∈ arrays, b.shape.eraseIdx ax ≠ a.shape.eraseIdx ax ∨ b.shape.length ≠ n then
        .error .valueError
      else
        let sizes := arrays.map (fun b => b.shape.getD ax 0)
        .ok ⟨a.shape.set ax sizes.sum, fun i =>
          (arrays.getD (findPart sizes (i ax)).1 a).get
            (Function.update i ax (findPart sizes (i ax)).2)⟩

/-- `convert.py:1050-1059` `concat(arrays, axis)` for arrays; a missing axis is the first one. `next` of
an empty iterable is not modelled. -/
def concat {K : Type*} (arrays : List (Arr K)) (axis : Option ℤ) : Py (Arr K) :=
  npConcat arrays (axis.getD 0)

/-- `convert.py:1071-1079` `concat(arrays, axis)` for array objects: the object is made anew, with the
number of moment axes of the first one. An object is its array with its moment parameters. -/
def concatObjects {K : Type} (objs : List (Arr K × Validate.PArray)) (axis : Option ℤ) :
    Py (Arr K × Validate.PArray) :=
  match objs with
  | [] => .error .undefined
  | c :: _ => (concat (objs.map Prod.fst) axis).bind fun a =>
    Validate.construct (δ := Unit) a .absent (some c.2.ndim) none

end Cmomy.ObjectIndex
