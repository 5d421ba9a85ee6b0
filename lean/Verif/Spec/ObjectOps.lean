import Verif.Spec.ObjectStats
import Verif.Spec.AxisOps
import Verif.Model.ObjectOps

/-!
# Array objects made from other array objects

A cell of an array object is the record of moments found at one index of its value axes.
-/

namespace Cmomy.Spec

open Nd

variable {K M : Type*}

/-- `out` is an array object with value axes of sizes `vs'`; its cell at `i` is the cell of `obj` at
`f i`. -/
structure CellsFrom (out obj : Arr K) (vs' vs ms : List ℕ) (f : (ℕ → ℕ) → ℕ → ℕ) : Prop where
  object : IsObject out vs' ms
  source : ∀ i, InBounds vs' i → InBounds vs (f i)
  cell : ∀ i, InBounds vs' i → ∀ m, Within ms m →
    out.get (atMom vs'.length i m) = obj.get (atMom vs.length (f i) m)

/-- All indices of axes of sizes `vs`, the axis listed last running fastest. -/
def cellsIn (axes vs : List ℕ) : List (ℕ → ℕ) :=
  allIdx (axes.map (fun a => (a, vs.getD a 0))) (fun _ => 0)

/-- Row by row, or column by column. -/
def readingOrder (n : ℕ) (columns : Bool) : List ℕ :=
  if columns then (List.range n).reverse else List.range n

/-- `vs'` are the sizes meant by `req`, where at most one size may be left open by `-1` (and then has
to be determined by the others), for an array with `total` cells. -/
structure Resolves (total : ℕ) (req : List ℤ) (vs' : List ℕ) : Prop where
  sizes : List.Forall₂ (fun (z : ℤ) (n : ℕ) => z = n ∨ z = -1) req vs'
  total : vs'.prod = total
  atMostOne : req.count (-1) ≤ 1
  determined : req.count (-1) = 1 → 0 ∉ req

/-- The array object holds, at every index `i`, a record that stands for the samples `L i`; `H` says
when a record stands for samples. -/
structure Stands {σ : Type*} (core : Core K M) (H : List σ → M → Prop) (obj : Arr K) (vs ms : List ℕ)
    (L : (ℕ → ℕ) → List σ) : Prop where
  object : IsObject obj vs ms
  nd : ms.length = core.nd
  holds : ∀ i, InBounds vs i → H (L i) (core.recd fun c => obj.get (atMom vs.length i c))

/-- Which axis of an array with `n` axes, the last `d` of them moment axes, is meant by an axis argument:
integers count all axes, imaginary integers the first `n - d`; both may count from the end. -/
def NamesAxis (n d : ℕ) : Axes.AxisArg → ℕ → Prop
  | .int z, r => InRange n z ∧ r = wrap n z
  | .complex _ im, r => ∃ z : ℤ, im = z ∧ InRange (n - d) z ∧ r = wrap (n - d) z
  | .float, _ => False

/-- Which axes are meant by the `axis` argument of a reduction: one, several different ones, or, for
`None`, all but the moment axes. -/
def NamesAxes (n d : ℕ) : Axes.AxesArg → List ℕ → Prop
  | .all, s => s = List.range (n - d)
  | .one a, s => ∃ r, s = [r] ∧ NamesAxis n d a r
  | .many as, s => List.Forall₂ (NamesAxis n d) as s ∧ s.Nodup

/-- The integer array has axes of these sizes and, row by row, the entries given by `entry`. -/
structure HasEntries (idx : ObjectOps.IdxArr) (sizes : List ℕ) (entry : List ℕ → ℤ) : Prop where
  shape : idx.shape = sizes
  vals : idx.vals = (cellsIn (List.range sizes.length) sizes).map
    (fun c => entry ((List.range sizes.length).map c))

/-- Which cell of the old object is found at `i` after axis `ax` has been replaced by `r` axes with the
cells numbered by `entry`. -/
def takenFrom (size ax r : ℕ) (entry : List ℕ → ℤ) (i : ℕ → ℕ) : ℕ → ℕ := fun a =>
  if a < ax then i a
  else if a = ax then wrap size (entry ((List.range r).map (fun q => i (ax + q))))
  else i (a + r - 1)

/-- The same, with axis `ax` moved behind the other `n - 1` value axes before it is replaced. -/
def takenLast (n size ax r : ℕ) (entry : List ℕ → ℤ) (i : ℕ → ℕ) : ℕ → ℕ := fun a =>
  if a = ax then wrap size (entry ((List.range r).map (fun q => i (n - 1 + q))))
  else i ((keptAxes n [ax]).idxOf a)

/-- The same for an array whose entries may be missing: none is, and at every index `i` they are the
entries of a record that stands for the samples `L i`. -/
structure ResultStands {σ : Type*} (core : Core K M) (H : List σ → M → Prop) (out : Arr (Option K))
    (vs ms : List ℕ) (L : (ℕ → ℕ) → List σ) : Prop where
  shape : out.shape = vs ++ ms
  holds : ∀ i, InBounds vs i → ∃ r, H (L i) r ∧
    ∀ m, Within ms m → out.get (atMom vs.length i m) = some (core.ent r m)

/-- The index of the old axes, for an index `i` of a result whose axes are the old axes `o`. -/
def readAs (o : List ℕ) (i : ℕ → ℕ) : ℕ → ℕ := fun a => i (o.idxOf a)

/-- The samples met at the `n` places along axis `ax`, place by place. -/
def samplesAlong {σ : Type*} (L : (ℕ → ℕ) → List σ) (ax n : ℕ) (i : ℕ → ℕ) : List (List σ) :=
  (List.range n).map (fun j => L (Function.update i ax j))

/-- All samples met when the axes `s` run through their sizes. -/
def allSamplesOver {σ : Type*} (L : (ℕ → ℕ) → List σ) (vs s : List ℕ) (i : ℕ → ℕ) : List σ :=
  (allIdx (s.map (fun a => (a, vs.getD a 0))) i).flatMap L

/-- Where the value axes are found in the result of an operation along `ax`. -/
def axesOfResult (n ax : ℕ) (axesToEnd : Bool) : List ℕ :=
  if axesToEnd then keptAxes n [ax] ++ [ax] else List.range n

/-- The sample with its weight multiplied by `f`. -/
def reweighted [Mul K] (f : K) (s : Sample K) : Sample K := ⟨s.w * f, s.x⟩

/-- The same for a pair of variables. -/
def reweighted2 [Mul K] (f : K) (s : Sample2 K) : Sample2 K := ⟨s.w * f, s.x, s.y⟩

end Cmomy.Spec
