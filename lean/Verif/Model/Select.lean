import Verif.Model.NdArray

/-!
# Selecting and assigning moments by name

`utils.py:311-366`, `utils.py:525-554`, `utils.py:746-780`.
-/

namespace Cmomy.Select

open Nd Axes

/-- One entry of an index tuple: an integer, `slice(None)`, or a list of integers. -/
inductive Idx
  | int (i : ℕ)
  | full
  | list (l : List ℕ)
deriving DecidableEq

/-- `utils.py:311-316` `_MOMENT_INDEXER_1` -/
def momentIndexer1 : List (String × List Idx) :=
  [("weight", [.int 0]), ("cov", [.int 2]), ("xave", [.int 1]), ("xvar", [.int 2])]

/-- `utils.py:317-328` `_MOMENT_INDEXER_2` -/
def momentIndexer2 : List (String × List Idx) :=
  [("weight", [.int 0, .int 0]), ("cov", [.int 1, .int 1]), ("xave", [.int 1, .int 0]),
   ("xvar", [.int 2, .int 0]), ("yave", [.int 0, .int 1]), ("yvar", [.int 0, .int 2]),
   ("xmom_0", [.int 0, .full]), ("xmom_1", [.int 1, .full]),
   ("ymom_0", [.full, .int 0]), ("ymom_1", [.full, .int 1])]

/-- `utils.py:332-366` `moment_indexer(name, mom_ndim, squeeze)` without the leading `...`. -/
def momentIndexer (name : String) (momNdim : ℕ) (squeeze : Bool) : Py (List Idx) :=
  if name = "all" then .ok []
  else if name = "ave" then
    .ok (if momNdim = 1 then (if squeeze then [.int 1] else [.list [1]])
      else [.list [1, 0], .list [0, 1]])
  else if name = "var" then
    .ok (if momNdim = 1 then (if squeeze then [.int 2] else [.list [2]])
      else [.list [2, 0], .list [0, 2]])
  else
    match (if momNdim = 1 then momentIndexer1 else momentIndexer2).lookup name with
    | none => .error .valueError
    | some idx => .ok idx

/-- What numpy makes of an index tuple on the trailing axes: the sizes of the result axes, the
position each result coordinate is read from, and the result coordinate (if any) that covers a
position. -/
structure Sub where
  shape : List ℕ
  locate : List ℕ → List ℕ
  unlocate : List ℕ → Option (List ℕ)

/-- Contract of numpy indexing with `(..., *idx)` on axes of the given trailing sizes, for the index
tuples `moment_indexer` produces. Lists are read in parallel. Out of range, or more indices than
axes: `IndexError`. -/
def subOf (idx : List Idx) (sizes : List ℕ) : Py Sub :=
  match idx, sizes with
  | [], s => .ok ⟨s, id, some⟩
  | [.int a], [s] =>
    if a < s then .ok ⟨[], fun _ => [a], fun m => if m = [a] then some [] else none⟩
    else .error .indexError
  | [.list l], [s] =>
    if ∀ a ∈ l, a < s then
      .ok ⟨[l.length], fun c => [l.getD (c.getD 0 0) 0], fun m =>
        if m.getD 0 0 ∈ l then some [l.idxOf (m.getD 0 0)] else none⟩
    else .error .indexError
  | [.int a, .int b], [s, t] =>
    if a < s ∧ b < t then .ok ⟨[], fun _ => [a, b], fun m => if m = [a, b] then some [] else none⟩
    else .error .indexError
  | [.int a, .full], [s, t] =>
    if a < s then
      .ok ⟨[t], fun c => [a, c.getD 0 0], fun m =>
        if m.getD 0 0 = a then some [m.getD 1 0] else none⟩
    else .error .indexError
  | [.full, .int b], [s, t] =>
    if b < t then
      .ok ⟨[s], fun c => [c.getD 0 0, b], fun m =>
        if m.getD 1 0 = b then some [m.getD 0 0] else none⟩
    else .error .indexError
  | [.list l, .list l'], [s, t] =>
    if (∀ a ∈ l, a < s) ∧ ∀ b ∈ l', b < t then
      .ok ⟨[l.length], fun c => [l.getD (c.getD 0 0) 0, l'.getD (c.getD 0 0) 0], fun m =>
        if (m.getD 0 0, m.getD 1 0) ∈ l.zip l' then
          some [(l.zip l').idxOf (m.getD 0 0, m.getD 1 0)]
        else none⟩
    else .error .indexError
  | _, _ => .error .indexError

variable {K : Type*}

/-- The index `i` with the coordinates from axis `p` on replaced by `l`. -/
def setFrom (p : ℕ) (l : List ℕ) (i : ℕ → ℕ) : ℕ → ℕ := fun ax =>
  if p ≤ ax then l.getD (ax - p) 0 else i ax

/-- `r` coordinates of `i` from axis `p` on. -/
def coords (p r : ℕ) (i : ℕ → ℕ) : List ℕ := (List.range r).map (fun t => i (p + t))

/-- `a[(..., *idx)]` where the last `d` axes are indexed. -/
def getItem (a : Arr K) (d : ℕ) (sub : Sub) : Arr K where
  shape := a.shape.take (a.shape.length - d) ++ sub.shape
  get i := a.get (setFrom (a.shape.length - d)
    (sub.locate (coords (a.shape.length - d) sub.shape.length i)) i)

/-- Broadcasting of a value against a shape, as in `a[...] = value`: axes are aligned from the
right; an axis of size one is repeated; surplus leading axes must have size one. -/
def broadcastTo (v : Arr K) (shape : List ℕ) : Py (Arr K) :=
  if ∀ ax < v.shape.length, v.shape.getD ax 0 = 1 ∨
      (v.shape.length ≤ ax + shape.length ∧
        v.shape.getD ax 0 = shape.getD (ax + shape.length - v.shape.length) 0) then
    .ok ⟨shape, fun i => v.get (fun ax =>
      if v.shape.getD ax 0 = 1 then 0 else i (ax + shape.length - v.shape.length))⟩
  else .error .valueError

/-- The array after `a[(..., *idx)] = v` with `v` of the shape of `a[(..., *idx)]`. -/
def putItem (a : Arr K) (d : ℕ) (sub : Sub) (v : Arr K) : Arr K where
  shape := a.shape
  get i :=
    match sub.unlocate (coords (a.shape.length - d) d i) with
    | some c => v.get (setFrom (a.shape.length - d) c i)
    | none => a.get i

/-- `a[moment_indexer(name, mom_ndim, squeeze)] = value`: the indexer is made first, then the index
is checked, then the value is broadcast. -/
def setItem (a : Arr K) (d : ℕ) (name : String) (squeeze : Bool) (value : Arr K) : Py (Arr K) :=
  (momentIndexer name d squeeze).bind fun idx =>
  (subOf idx (a.shape.drop (a.shape.length - d))).bind fun sub =>
  (broadcastTo value (a.shape.take (a.shape.length - d) ++ sub.shape)).map fun v =>
  putItem a d sub v

/-- `np.moveaxis(a, source, destination)`; same contract as `moveaxis_order`. -/
def moveaxis (a : Arr K) (source destination : List ℤ) : Py (Arr K) :=
  (moveaxisOrder a.shape.length (source.map .int) (destination.map .int)).map a.transpose

/-- `core/moment_params.py` `axes_last`: `(-1,)` or `(-2, -1)` -/
def axesLast (d : ℕ) : List ℤ := (List.range d).map (fun j : ℕ => -(d : ℤ) + j)

/-- `utils.py:525-554`, numpy branch of `select_moment` and `_select_moment`. -/
def selectMoment (data : Arr K) (momAxes : List ℤ) (name : String) (squeeze : Bool) : Py (Arr K) :=
  (if momAxes ≠ axesLast momAxes.length then moveaxis data momAxes (axesLast momAxes.length)
    else .ok data).bind fun data =>
  if data.shape.length < momAxes.length then .error .valueError
  else
    (momentIndexer name momAxes.length squeeze).bind fun idx =>
    (subOf idx (data.shape.drop (data.shape.length - momAxes.length))).map fun sub =>
    getItem data momAxes.length sub

/-- `utils.py:774-775`, the loop: the array as far as it was written, and whether the loop was left
by an exception. -/
def assignLoop (d : ℕ) (squeeze : Bool) : List (String × Arr K) → Arr K → Arr K × Option PyErr
  | [], w => (w, none)
  | (name, value) :: l, w =>
    match setItem w d name squeeze value with
    | .error e => (w, some e)
    | .ok w' => assignLoop d squeeze l w'

/-- `utils.py:757-780` `_assign_moment`: the caller's array afterwards, and the result. `moveaxis`
returns a view, so without `copy` the writes reach the caller's array. -/
def assignMoment (data : Arr K) (momAxes : List ℤ) (values : List (String × Arr K))
    (squeeze copy : Bool) : Arr K × Py (Arr K) :=
  let d := momAxes.length
  if momAxes ≠ axesLast d then
    match moveaxis data momAxes (axesLast d) with
    | .error e => (data, .error e)
    | .ok w =>
      let r := assignLoop d squeeze values w
      match moveaxis r.1 (axesLast d) momAxes with
      | .error e => (data, .error e)
      | .ok back =>
        (if copy then data else back, match r.2 with
          | some e => .error e
          | none => .ok back)
  else
    let r := assignLoop d squeeze values data
    (if copy then data else r.1, match r.2 with
      | some e => .error e
      | none => .ok r.1)

end Cmomy.Select
