import Verif.Spec.NdArray

/-!
# What the names of moments mean
-/

namespace Cmomy.Spec

open Nd

/-- The names documented for `mom_ndim` 1 and 2. -/
def knownNames (momNdim : ℕ) : List String :=
  ["all", "weight", "ave", "var", "cov", "xave", "xvar"] ++
    if momNdim = 1 then [] else ["yave", "yvar", "xmom_0", "xmom_1", "ymom_0", "ymom_1"]

/-- For a one-variable moment axis of the given size: which result coordinate shows which moment.
`squeeze` drops the axis of length one. -/
def selection1 (name : String) (squeeze : Bool) (size : ℕ) : List (List ℕ × List ℕ) :=
  if name = "all" then (List.range size).map (fun k => ([k], [k]))
  else if name = "weight" then [([], [0])]
  else if name = "xave" then [([], [1])]
  else if name = "xvar" then [([], [2])]
  else if name = "cov" then [([], [2])]
  else if name = "ave" then [(if squeeze then [] else [0], [1])]
  else if name = "var" then [(if squeeze then [] else [0], [2])]
  else []

/-- For two variables. `ave` and `var` show the first and second variable. -/
def selection2 (name : String) (size0 size1 : ℕ) : List (List ℕ × List ℕ) :=
  if name = "all" then
    (List.range size0).flatMap (fun k => (List.range size1).map (fun l => ([k, l], [k, l])))
  else if name = "weight" then [([], [0, 0])]
  else if name = "xave" then [([], [1, 0])]
  else if name = "yave" then [([], [0, 1])]
  else if name = "xvar" then [([], [2, 0])]
  else if name = "yvar" then [([], [0, 2])]
  else if name = "cov" then [([], [1, 1])]
  else if name = "ave" then [([0], [1, 0]), ([1], [0, 1])]
  else if name = "var" then [([0], [2, 0]), ([1], [0, 2])]
  else if name = "xmom_0" then (List.range size1).map (fun l => ([l], [0, l]))
  else if name = "xmom_1" then (List.range size1).map (fun l => ([l], [1, l]))
  else if name = "ymom_0" then (List.range size0).map (fun k => ([k], [k, 0]))
  else if name = "ymom_1" then (List.range size0).map (fun k => ([k], [k, 1]))
  else []

/-- The pairs (result coordinate, moment) a name selects from moment axes of the given sizes. -/
def selection (name : String) (squeeze : Bool) (sizes : List ℕ) : List (List ℕ × List ℕ) :=
  match sizes with
  | [s] => selection1 name squeeze s
  | [s, t] => selection2 name s t
  | _ => []

/-- The sizes of the axes a selection has in place of the moment axes. -/
def selShape (name : String) (squeeze : Bool) (sizes : List ℕ) : List ℕ :=
  if name = "all" then sizes
  else if name = "ave" ∨ name = "var" then
    if sizes.length = 1 then (if squeeze then [] else [1]) else [2]
  else if name = "xmom_0" ∨ name = "xmom_1" then sizes.drop 1
  else if name = "ymom_0" ∨ name = "ymom_1" then sizes.take 1
  else []

/-- The coordinates `m` exist on axes of the given sizes. -/
def Within (sizes m : List ℕ) : Prop := List.Forall₂ (· < ·) m sizes

/-- The name is known, and every moment it needs is present. -/
def Selectable (name : String) (squeeze : Bool) (sizes : List ℕ) : Prop :=
  name ∈ knownNames sizes.length ∧ ∀ p ∈ selection name squeeze sizes, Within sizes p.2

/-- The index `i` with the moment coordinates replaced by `m`. -/
def withMoment (mom m : List ℕ) (i : ℕ → ℕ) : ℕ → ℕ := fun a =>
  if a ∈ mom then m.getD (mom.idxOf a) 0 else i a

/-- The index with the listed coordinates. -/
def atCoords (l : List ℕ) : ℕ → ℕ := fun p => l.getD p 0

/-- `i` is an index of an array of this shape. -/
def InBounds (shape : List ℕ) (i : ℕ → ℕ) : Prop := ∀ ax < shape.length, i ax < shape.getD ax 0

/-- Two arrays have the same shape and the same elements. -/
def SameArr {K : Type*} (a b : Arr K) : Prop :=
  a.shape = b.shape ∧ ∀ i, InBounds a.shape i → a.get i = b.get i

/-- A value of shape `vs` can be repeated to fill `shape`: read from the last axis, every size is
one or agrees. -/
def Broadcasts (vs shape : List ℕ) : Prop :=
  ∀ (k a : ℕ), vs.reverse[k]? = some a → a = 1 ∨ shape.reverse[k]? = some a

/-- The value repeated to fill an array with `n` axes: its axes are the last ones, and along axes of
size one it does not change. -/
def stretch {K : Type*} (v : Arr K) (n : ℕ) (i : ℕ → ℕ) : K :=
  v.get (fun ax => if v.shape.getD ax 0 = 1 then 0 else i (ax + n - v.shape.length))

/-- Moment axes of an array: one or two, distinct, in range, not empty. -/
structure GoodMoments {K : Type*} (data : Arr K) (mom : List ℤ) : Prop where
  proper : data.Proper
  count : mom.length = 1 ∨ mom.length = 2
  range : ∀ z ∈ mom, InRange data.shape.length z
  distinct : (mom.map (wrap data.shape.length)).Nodup
  positive : ∀ a ∈ mom.map (wrap data.shape.length), 0 < axisSize data a

/-- The moment axes, counted from zero. -/
abbrev momPos {K : Type*} (data : Arr K) (mom : List ℤ) : List ℕ :=
  mom.map (wrap data.shape.length)

/-- The sizes of the moment axes. -/
abbrev momSizes {K : Type*} (data : Arr K) (mom : List ℤ) : List ℕ :=
  (momPos data mom).map (axisSize data)

/-- The other axes. -/
abbrev valPos {K : Type*} (data : Arr K) (mom : List ℤ) : List ℕ :=
  keptAxes data.shape.length (momPos data mom)

/-- The shape of a selection: the other axes, then what the name selects. -/
abbrev targetShape {K : Type*} (data : Arr K) (mom : List ℤ) (name : String) (squeeze : Bool) :
    List ℕ :=
  (valPos data mom).map (axisSize data) ++ selShape name squeeze (momSizes data mom)

end Cmomy.Spec
