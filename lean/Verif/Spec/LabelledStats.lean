import Verif.Model.LabelledStats
import Verif.Spec.LabelledObject
import Verif.Spec.ObjectStats

/-!
# What the statistics of a labelled object should show

Everything is said in terms of dimension names; `selection` (`Spec/Select.lean`) says which moments a
name stands for.
-/

namespace Cmomy.Spec

open Labelled

variable {δ : Type} [DecidableEq δ] {α K : Type}

/-- The names of the dimensions a selection has in place of the moment dimensions; `combined` is the
dimension that runs through the variables. -/
def selNames (moms : List δ) (name : String) (squeeze : Bool) (combined : Option δ) : List δ :=
  if name = "all" then moms
  else if name = "ave" ∨ name = "var" then
    if moms.length = 1 ∧ squeeze = true then [] else combined.toList
  else if name = "xmom_0" ∨ name = "xmom_1" then moms.drop 1
  else if name = "ymom_0" ∨ name = "ymom_1" then moms.take 1
  else []

/-- One or two moment dimensions, with at least the moments 0 and 1. -/
structure MomentObject (obj : DataArray δ α) (moms : List δ) : Prop where
  object : LabelledObject obj moms moms.length
  count : moms.length = 1 ∨ moms.length = 2
  orders : ∀ d ∈ moms, 2 ≤ obj.size d

/-- What a value shows at the coordinates `c` of the object and `m` of the selection. Labelled values
are matched by name, others by position from the last axis. -/
def shownBy (loop names : List δ) (c : δ → ℕ) (m : List ℕ) : Operand δ α → α
  | .named y => entry y (withNames names m c)
  | .plain a => stretch a (loop.length + m.length) (atMom loop.length (coordsAlong loop c) m)

/-- The value can be assigned to the moments called `name`: no dimension is missing, and the sizes agree. -/
def GoodValue (obj : DataArray δ α) (moms : List δ) (squeeze : Bool) (combined : Option δ)
    (v : String × Operand δ α) : Prop :=
  Selectable v.1 squeeze (moms.map obj.size) ∧
  match v.2 with
  | .named y => y.dims.Nodup ∧ (∀ d ∈ selNames moms v.1 squeeze combined, d ∈ y.dims) ∧
      (∀ d ∈ y.dims, d ∈ valDims obj moms ++ selNames moms v.1 squeeze combined) ∧
      (∀ d ∈ y.dims, d ∈ valDims obj moms → y.size d = obj.size d) ∧
      (selNames moms v.1 squeeze combined).map y.size = selShape v.1 squeeze (moms.map obj.size)
  | .plain a => a.Proper ∧ Broadcasts a.shape
      ((valDims obj moms).map obj.size ++ selShape v.1 squeeze (moms.map obj.size))

/-- The entries of the object after assigning the values one after the other: where `name` stands for
the moment at hand the value is found, everywhere else what was there. -/
def assignedAt (obj : DataArray δ α) (moms : List δ) (squeeze : Bool) (combined : Option δ)
    (values : List (String × Operand δ α)) (c : δ → ℕ) : α :=
  values.foldl (fun x v =>
    match (selection v.1 squeeze (moms.map obj.size)).find? (fun p => decide (p.2 = moms.map c)) with
    | some p => shownBy (valDims obj moms) (selNames moms v.1 squeeze combined) c p.1 v.2
    | none => x) (entry obj c)

/-- The object holds, at all coordinates `c`, the moments up to `order` of the samples `L c`. -/
structure MomentsNamed [Field K] (obj : DataArray δ K) (mom : δ) (order : ℕ)
    (L : (δ → ℕ) → List (Sample K)) : Prop where
  object : LabelledObject obj [mom] 1
  size : obj.size mom = order + 1
  positive : 1 ≤ order
  nonzero : ∀ c, InLabelled obj [mom] c → weight (L c) ≠ 0
  moments : ∀ c, InLabelled obj [mom] c →
    IsMoments order (L c) (fun n => entry obj (withNames [mom] [n] c))

/-- The same for the comoments of two variables up to `(o0, o1)`. -/
structure ComomentsNamed [Field K] (obj : DataArray δ K) (mom0 mom1 : δ) (o0 o1 : ℕ)
    (L : (δ → ℕ) → List (Sample2 K)) : Prop where
  object : LabelledObject obj [mom0, mom1] 2
  size0 : obj.size mom0 = o0 + 1
  size1 : obj.size mom1 = o1 + 1
  positive0 : 1 ≤ o0
  positive1 : 1 ≤ o1
  nonzero : ∀ c, InLabelled obj [mom0, mom1] c → weight2 (L c) ≠ 0
  moments : ∀ c, InLabelled obj [mom0, mom1] c →
    IsComoments o0 o1 (L c) (fun n m => entry obj (withNames [mom0, mom1] [n, m] c))

end Cmomy.Spec
