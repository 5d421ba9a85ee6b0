import Verif.Model.Interval
import Verif.Model.Select

/-!
# Bootstrap confidence intervals of arrays

`/repo/src/cmomy/confidence_interval.py:258-384`: replicates along one axis of an array with any
number of axes. Numbers are exact; `none` stands for an infinite or undefined number.
Simplifications: broadcasting in which `theta_boot` itself would be repeated is not modelled
(`undefined`, as are shapes NumPy refuses); dtypes and the warning are left out; the labelled branch
(`204-256`) is not modelled.
-/

namespace Cmomy.Nd

open Axes

variable {K : Type*} {α β : Type*}

/-- The index `i` with coordinate `s` inserted for axis `ax`. -/
def insertAt (ax s : ℕ) (i : ℕ → ℕ) : ℕ → ℕ := fun p =>
  if p < ax then i p else if p = ax then s else i (p - 1)

/-- The index `i` without its coordinate for axis `ax`. -/
def dropAt (ax : ℕ) (i : ℕ → ℕ) : ℕ → ℕ := fun p => if p < ax then i p else i (p + 1)

/-- The index with the coordinates `c`. -/
def at_ (c : List ℕ) : ℕ → ℕ := fun p => c.getD p 0

/-- The elements along axis `ax` at position `i` of the other axes. -/
def Arr.lineAt (a : Arr α) (ax : ℕ) (i : ℕ → ℕ) : List α :=
  (List.range (a.shape.getD ax 0)).map (fun s => a.get (insertAt ax s i))

/-- A function of the elements along `axis`, as in `a.sum(axis=axis)`: the axis is gone. -/
def Arr.along (a : Arr α) (ax : ℕ) (f : List α → β) : Arr β where
  shape := a.shape.eraseIdx ax
  get i := f (a.lineAt ax i)

/-- `np.expand_dims(a, axis)` with `axis` already normalised by the dimensions of the result. -/
def Arr.expandAt (a : Arr α) (ax : ℕ) : Arr α where
  shape := a.shape.take ax ++ 1 :: a.shape.drop ax
  get i := a.get (dropAt ax i)

/-- `np.squeeze(a, axis=axis)`: an axis of a size other than one is a `ValueError`. -/
def Arr.squeezeAt (a : Arr α) (ax : ℕ) : Py (Arr α) :=
  if a.shape.getD ax 0 = 1 then .ok ⟨a.shape.eraseIdx ax, fun i => a.get (insertAt ax 0 i)⟩
  else .error .valueError

/-- Contract of `np.moveaxis(a, -1, 0)`. -/
def Arr.lastToFirst (a : Arr α) : Arr α where
  shape := a.shape.drop (a.shape.length - 1) ++ a.shape.take (a.shape.length - 1)
  get i := a.get (insertAt (a.shape.length - 1) (i 0) (dropAt 0 i))

/-- Contract of `np.moveaxis(a, axis, -1)`. -/
def Arr.toLast (a : Arr α) (ax : ℕ) : Arr α where
  shape := a.shape.eraseIdx ax ++ [a.shape.getD ax 0]
  get i := a.get (insertAt ax (i (a.shape.length - 1)) (dropAt (a.shape.length - 1) i))

/-- `np.ndindex(shape)`: all indices, the last coordinate running fastest. -/
def ndindexes : List ℕ → List (List ℕ)
  | [] => [[]]
  | n :: l => (List.range n).flatMap (fun s => (ndindexes l).map (fun c => s :: c))

variable [Field K] [LinearOrder K] [FloorRing K]

/-- `confidence_interval.py:288-294`: at least one dimension, and one more when there are fewer than
`theta_boot` has. The axis is counted in the expanded array. -/
def hatArr (hat : Arr K) (n : ℕ) (axis : ℤ) : Py (Arr K) :=
  let h : Arr K := if hat.shape = [] then ⟨[1], fun _ => hat.get (fun _ => 0)⟩ else hat
  if h.shape.length < n then (npNormalize axis (h.shape.length + 1 : ℕ)).map h.expandAt else .ok h

/-- `confidence_interval.py:327-334` `_compute_a(theta_jack, axis)`. -/
def computeANd (N : NormalFns K) (jack : Arr K) (axis : ℤ) : Py (Arr (Option K)) :=
  (npNormalize axis jack.shape.length).map fun ax => jack.along ax (computeA N)

/-- `confidence_interval.py:337-341` `_percentile_of_score`, with the score already broadcast to the
shape of `a`. -/
def percentileNd (a score : Arr K) (ax : ℕ) : Arr K where
  shape := a.shape.eraseIdx ax
  get i :=
    (((((List.range (a.shape.getD ax 0)).filter (fun s =>
        decide (a.get (insertAt ax s i) < score.get (insertAt ax s i)))).length : ℕ) : K) +
      (((List.range (a.shape.getD ax 0)).filter (fun s =>
        decide (a.get (insertAt ax s i) ≤ score.get (insertAt ax s i)))).length : ℕ)) /
    (2 * ((a.shape.getD ax 0 : ℕ) : K))

/-- Broadcasting against a fixed shape; no claim where that is not possible. -/
def fitTo (a : Arr α) (shape : List ℕ) : Py (Arr α) :=
  match Select.broadcastTo a shape with
  | .ok b => .ok b
  | .error _ => .error .undefined

/-- `confidence_interval.py:344-350` `_compute_z0`. -/
def computeZ0Nd (N : NormalFns K) (hat boot : Arr K) (ax : ℕ) : Py (Arr (Option K)) :=
  (fitTo hat boot.shape).map fun score =>
    ⟨boot.shape.eraseIdx ax, fun i => N.ndtri ((percentileNd boot score ax).get i)⟩

/-- `confidence_interval.py:303-306`: the adjusted levels, along a new last axis. -/
def avalsNd (N : NormalFns K) (a z0 : Arr (Option K)) (alphas : List K) : Py (Arr (Option K)) :=
  (fitTo (a.expandAt a.shape.length) (z0.shape ++ [alphas.length])).map fun a' =>
    ⟨z0.shape ++ [alphas.length], fun i =>
      (a'.get i).bind fun av => ((z0.expandAt z0.shape.length).get i).bind fun zv =>
        (alphas[i z0.shape.length]?).bind (bcaLevel N av zv)⟩

/-- `confidence_interval.py:371-382`: one index of the loop, with the levels and the replicates there. -/
def quantileRow (levels : List (Option K)) (xs : List K) : Py (Option (List K)) :=
  match levels.mapM id with
  | none => .ok none
  | some qs => (npQuantile xs qs).map some

/-- The number with index `j` of a row. -/
def entryOf (r : Py (Option (List K))) (j : ℕ) : Option K :=
  match r with
  | .ok (some l) => l[j]?
  | _ => none

/-- `confidence_interval.py:354-384` `_quantile_along_axis`: for every index of the other axes the
quantiles of the replicates there at the levels there; all undefined when one level is. -/
def quantileAlong (boot : Arr K) (alpha : Arr (Option K)) (levels ax : ℕ) : Py (Arr (Option K)) :=
  let b := boot.toLast ax
  let shape := b.shape.dropLast
  (fitTo alpha (shape ++ [levels])).bind fun al =>
  let row : List ℕ → Py (Option (List K)) := fun c =>
    quantileRow (al.lineAt shape.length (at_ c)) (b.lineAt shape.length (at_ c))
  ((ndindexes shape).mapM row).map fun _ =>
    ⟨shape ++ [levels], fun i => entryOf (row ((List.range shape.length).map i)) (i shape.length)⟩

/-- `np.quantile(a, qs, axis=axis)`: the levels come first. -/
def quantileNd (a : Arr K) (qs : List K) (ax : ℕ) : Py (Arr K) :=
  if qs.all (fun q => decide (0 ≤ q) && decide (q ≤ 1)) then
    if a.shape.getD ax 0 = 0 then .error .undefined
    else .ok ⟨qs.length :: a.shape.eraseIdx ax, fun i =>
      quantile1 (a.lineAt ax (dropAt 0 i)) (qs.getD (i 0) 0)⟩
  else .error .valueError

/-- `confidence_interval.py:312`: `2 * np.squeeze(theta_hat_, axis=axis) - ci[-1::-1, ...]`. -/
def reflectNd (hat : Arr K) (axis : ℤ) (ci : Arr K) : Py (Arr K) :=
  (npNormalize axis hat.shape.length).bind fun hx =>
  (hat.squeezeAt hx).bind fun sq =>
  (fitTo sq ci.shape).map fun s =>
    ⟨ci.shape, fun i =>
      2 * s.get i - ci.get (insertAt 0 (ci.shape.getD 0 0 - 1 - i 0) (dropAt 0 i))⟩

/-- `confidence_interval.py:273-314` `_bootstrap_confidence_interval`. -/
def bootCINd (N : NormalFns K) (boot : Arr K) (hat jack : Option (Arr K)) (alphas : List K)
    (method : String) (axis : ℤ) : Py (Arr (Option K)) :=
  let method_ := method.toLower
  if method_ = "bca" then
    match hat with
    | none => .error .valueError
    | some h =>
      (hatArr h boot.shape.length axis).bind fun h' =>
      match jack with
      | none => .error .axisError
      | some j =>
        (computeANd N j axis).bind fun a =>
        (npNormalize axis boot.shape.length).bind fun ax =>
        (computeZ0Nd N h' boot ax).bind fun z0 =>
        (avalsNd N a z0 alphas).bind fun avals =>
        (quantileAlong boot avals alphas.length ax).map Arr.lastToFirst
  else if method_ = "basic" then
    match hat with
    | none => .error .valueError
    | some h =>
      (hatArr h boot.shape.length axis).bind fun h' =>
      (npNormalize axis boot.shape.length).bind fun ax =>
      (quantileNd boot alphas ax).bind fun ci =>
      (reflectNd h' axis ci).map fun r => ⟨r.shape, fun i => some (r.get i)⟩
  else
    (npNormalize axis boot.shape.length).bind fun ax =>
    (quantileNd boot alphas ax).map fun r => ⟨r.shape, fun i => some (r.get i)⟩

/-- `confidence_interval.py:198-202`, `258-270`: `bootstrap_confidence_interval` for NumPy arrays, with
`axis` given as an integer (for `None` `validate_axis` raises a `TypeError`, `core/validate.py:199-208`). -/
def bootstrapCINd (N : NormalFns K) (boot : Arr K) (hat jack : Option (Arr K)) (alpha : AlphaArg K)
    (method : String) (axis : ℤ) : Py (Arr (Option K)) :=
  bootCINd N boot hat jack alpha.alphas method axis

end Cmomy.Nd
