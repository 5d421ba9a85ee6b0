import Verif.Model.LabelledObject
import Verif.Spec.LabelledPush
import Verif.Spec.ObjectIndex

/-!
# What labelled objects made from others should be

A cell of a labelled object is the record of moments found at named coordinates.
-/

namespace Cmomy.Spec

open Labelled

variable {δ : Type} [DecidableEq δ] {α K M : Type}

/-- `out` is an object with moment dimensions `moms`, of the sizes they have in `obj`; its cell at the
coordinates `c` is the cell of `obj` at `f c`. -/
structure CellsNamed (out obj : DataArray δ α) (moms : List δ) (nd : ℕ) (f : (δ → ℕ) → δ → ℕ) :
    Prop where
  object : LabelledObject out moms nd
  momSize : ∀ d ∈ moms, out.size d = obj.size d
  source : ∀ c, InLabelled out moms c → InLabelled obj moms (f c)
  cell : ∀ c, InLabelled out moms c → ∀ ms,
    entry out (withNames moms ms c) = entry obj (withNames moms ms (f c))

/-- At all coordinates `c` the object holds a record that stands for the samples `L c`; `H` says when a
record stands for samples. -/
structure StandsNamed {σ : Type*} (core : Nd.Core K M) (H : List σ → M → Prop) (obj : DataArray δ K)
    (moms : List δ) (L : (δ → ℕ) → List σ) : Prop where
  object : LabelledObject obj moms core.nd
  holds : ∀ c, InLabelled obj moms c → H (L c) (recordNamed core obj moms c)

/-- The positions selected among `n`. -/
def Positions (n : ℕ) : Sel → List ℕ → Prop
  | .int z, l => InRange n z ∧ l = [wrap n z]
  | .slice start stop step, l => IsSlice n start stop step l
  | .list zs, l => (∀ z ∈ zs, InRange n z) ∧ l = zs.map (wrap n)
  | .mask bs, l => bs.length = n ∧ l.Pairwise (· < ·) ∧ ∀ p, p ∈ l ↔ bs[p]? = some true

/-- A single position. -/
def isPosition : Sel → Bool
  | .int _ => true
  | _ => false

/-- A single position is selected along `d`, so that the dimension is dropped. -/
def drops (sel : List (δ × Sel)) (d : δ) : Bool :=
  sel.any (fun p => decide (p.1 = d) && isPosition p.2)

/-- The old coordinates of what is found at `c` after selecting the positions `pos`. -/
def takenAt (sel : List (δ × Sel)) (pos : δ → List ℕ) (c : δ → ℕ) : δ → ℕ := fun d =>
  if d ∈ sel.map Prod.fst then (if drops sel d then (pos d).getD 0 0 else (pos d).getD (c d) 0)
  else c d

/-- A selection from different dimensions of the array, with the positions `pos`. -/
structure GoodSel (obj : DataArray δ α) (sel : List (δ × Sel)) (pos : δ → List ℕ) : Prop where
  distinct : (sel.map Prod.fst).Nodup
  present : ∀ p ∈ sel, p.1 ∈ obj.dims
  positions : ∀ p ∈ sel, Positions (obj.size p.1) p.2 (pos p.1)

/-- Selections that keep the sizes of the moment dimensions. -/
def KeepsMoments (obj : DataArray δ α) (moms : List δ) (sel : List (δ × Sel)) (pos : δ → List ℕ) :
    Prop :=
  ∀ d ∈ moms, d ∈ sel.map Prod.fst → drops sel d = false ∧ (pos d).length = obj.size d

/-- Entries of a key written out: those in front go to the first dimensions, those behind to the last
ones. -/
def keyPairs (dims : List δ) (front back : List Sel) : List (δ × Sel) :=
  dims.zip front ++ (dims.drop (dims.length - back.length)).zip back

/-- The old coordinates of what is found at `c` after the dimensions `ds` have become the dimension
`new`: these run through their sizes, the last one running fastest. -/
def unstacked (size : δ → ℕ) (ds : List δ) (new : δ) (c : δ → ℕ) : δ → ℕ :=
  (allCoords size ds c).getD (c new) c

/-- All dimensions, those listed in `front` first and those listed in `back` last; the others keep their
order. -/
def middle (dims front back : List δ) : List δ :=
  front ++ dims.filter (fun d => decide (d ∉ front ++ back)) ++ back

end Cmomy.Spec
