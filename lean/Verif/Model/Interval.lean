import Verif.Model.Errors
import Mathlib.Algebra.Order.Floor.Ring
import Mathlib.Algebra.Order.Field.Basic
import Mathlib.Algebra.BigOperators.Group.List.Basic

/-!
# Bootstrap confidence intervals

`/repo/src/cmomy/confidence_interval.py`, one position of the value dimensions (every position is
treated on its own along `axis`).
-/

namespace Cmomy

variable {K : Type*} [Field K] [LinearOrder K] [FloorRing K]

/-- Sorted copy, as made by `np.quantile` (it partitions; only the order statistics are used). -/
def sortK (xs : List K) : List K := xs.mergeSort (fun a b => decide (a ≤ b))

/-- NumPy's `_lerp(a, b, t)`: `a + (b - a) * t`, computed from the other end for `t ≥ 0.5`. -/
def lerp (a b t : K) : K :=
  if t ≥ 1 / 2 then b - (b - a) * (1 - t) else a + (b - a) * t

/-- `np.quantile(xs, q)` by its documented `method="linear"`: virtual index `(n - 1) q`, order
statistics below and above, linear interpolation; the last order statistic from `n - 1` on.
`xs` non-empty. Simplification: exact arithmetic. -/
def quantile1 (xs : List K) (q : K) : K :=
  let s := sortK xs
  let v : K := ((xs.length - 1 : ℕ) : K) * q
  let prev := ⌊v⌋₊
  let next := prev + 1
  if v ≥ ((xs.length - 1 : ℕ) : K) then s.getD (xs.length - 1) 0
  else lerp (s.getD prev 0) (s.getD next 0) (v - (prev : K))

/-- `np.quantile(xs, qs)`: levels outside `[0, 1]` are a `ValueError`; for no data at all NumPy's
behaviour depends on the version (`undefined`). -/
def npQuantile (xs : List K) (qs : List K) : Py (List K) :=
  if qs.all (fun q => decide (0 ≤ q) && decide (q ≤ 1)) then
    if xs.isEmpty then .error .undefined else .ok (qs.map (quantile1 xs))
  else .error .valueError

/-- `confidence_interval.py:199-202`: the argument `alpha`, a number or an iterable of levels. -/
inductive AlphaArg (K : Type*) where
  | scalar (a : K)
  | levels (l : List K)

/-- `confidence_interval.py:199-202`. -/
def AlphaArg.alphas : AlphaArg K → List K
  | .levels l => l
  | .scalar a => [a * (1 / 2), 1 - a * (1 / 2)]

/-- The functions of the standard normal distribution used by `bca`, and the power `x ** 1.5`:
external functions, parameters of the model. `ndtri p = none` stands for an infinite result. -/
structure NormalFns (K : Type*) where
  ndtr : K → K
  ndtri : K → Option K
  pow32 : K → K

/-- `confidence_interval.py:327-334` `_compute_a`; `none` for a division by zero. -/
def computeA (N : NormalFns K) (theta_jack : List K) : Option K :=
  let mean := theta_jack.sum / (theta_jack.length : K)
  let delta := theta_jack.map (fun t => mean - t)
  let num := (delta.map (fun d => d ^ 3)).sum
  let den := (delta.map (fun d => d ^ 2)).sum
  let d := 6 * N.pow32 den
  if theta_jack.isEmpty ∨ d = 0 then none else some (num / d)

/-- `confidence_interval.py:337-341` `_percentile_of_score`. -/
def percentileOfScore (a : List K) (score : K) : K :=
  (((a.filter (fun x => decide (x < score))).length : K) +
    ((a.filter (fun x => decide (x ≤ score))).length : K)) / (2 * (a.length : K))

/-- `confidence_interval.py:344-350` `_compute_z0`. -/
def computeZ0 (N : NormalFns K) (theta_hat : K) (theta_boot : List K) : Option K :=
  N.ndtri (percentileOfScore theta_boot theta_hat)

/-- One adjusted level, `confidence_interval.py:303-306`:
`zs = z0 + ndtri(alpha)`, `ndtr(z0 + zs / (1 - a * zs))`. -/
def bcaLevel (N : NormalFns K) (a z0 alpha : K) : Option K := do
  let z ← N.ndtri alpha
  let zs := z0 + z
  if 1 - a * zs = 0 then none else some (N.ndtr (z0 + zs / (1 - a * zs)))

/-- `confidence_interval.py:273-315` `_bootstrap_confidence_interval`. The outer `Except` is a
Python exception, the inner `Option` is `none` where an infinite or undefined intermediate number
occurs (then nothing is said about the numbers). Simplifications: one value position;
`theta_jack=None` makes `mean(axis=...)` of a 0-d array fail. -/
def bootCI (N : NormalFns K) (theta_boot : List K) (theta_hat : Option K)
    (theta_jack : Option (List K)) (alphas : List K) (method : String) :
    Py (Option (List K)) :=
  let method_ := method.toLower
  if (method_ = "basic" ∨ method_ = "bca") ∧ theta_hat = none then .error .valueError
  else if method_ = "bca" then
    match theta_hat, theta_jack with
    | none, _ => .error .valueError
    | some _, none => .error .axisError
    | some th, some tj =>
      match computeA N tj, computeZ0 N th theta_boot with
      | some a, some z0 =>
        match alphas.mapM (bcaLevel N a z0) with
        | some avals => (npQuantile theta_boot avals).map some
        | none => .ok none
      | _, _ => .ok none
  else do
    let ci ← npQuantile theta_boot alphas
    if method_ = "basic" then
      match theta_hat with
      | none => .error .valueError
      | some th => .ok (some (ci.reverse.map (fun c => 2 * th - c)))
    else .ok (some ci)

/-- `confidence_interval.py:76-265` for NumPy input. -/
def bootstrapConfidenceInterval (N : NormalFns K) (theta_boot : List K) (theta_hat : Option K)
    (theta_jack : Option (List K)) (alpha : AlphaArg K) (method : String) :
    Py (Option (List K)) :=
  bootCI N theta_boot theta_hat theta_jack alpha.alphas method

end Cmomy
