import Verif.Spec.Rounding
import Verif.Spec.Moments

/-!
# Specification for the errors of averages and variances
-/

namespace Cmomy.Spec

variable {K : Type*} [Field K]

/-- A record: weight, average and variance of some samples. -/
structure Record (K : Type*) where
  w : K
  x : K
  d : K

/-- Total weight. -/
def recWeight (L : List (Record K)) : K := (L.map Record.w).sum

/-- Average of all samples. -/
def recMean (L : List (Record K)) : K := (L.map fun a => a.w * a.x).sum / recWeight L

/-- Variance of all samples: within the records, and between them. -/
def recVar (L : List (Record K)) : K := (L.map fun a => a.w * (a.d + (a.x - recMean L) ^ 2)).sum / recWeight L

/-- The record in an array of moments. -/
def recordOf (m : ℕ → K) : Record K := ⟨m 0, m 1, m 2⟩

/-- The record counted `f` times. -/
def Record.times (a : Record K) (f : K) : Record K := ⟨a.w * f, a.x, a.d⟩

variable [LinearOrder K] [IsStrictOrderedRing K]

/-- A precision whose roundings have relative errors of at most `u`. -/
structure Accurate (R : Precision K) (u : K) : Prop where
  precision : IsPrecision R
  lo : ∀ y, |R.lo y - y| ≤ u * |y|
  hi : ∀ y, |R.hi y - y| ≤ u * |y|

/-- Weight, average and variance of `m` are those of the records, up to roundings. The average is off by at most
`16 (n + 5) u B`, the variance by at most `400 (n + 5) u B ^ 2`, where `n` is the number of records and `B` a bound of
their averages. -/
structure AlmostOf (u B : K) (order : ℕ) (L : List (Record K)) (m : Mom K) : Prop where
  weight : (1 - (L.length + 1) * u) * recWeight L ≤ m 0 ∧ (1 - (L.length + 1) * u) * m 0 ≤ recWeight L
  mean : |m 1 - recMean L| ≤ 16 * ((L.length + 5) * u) * B
  var : order ≠ 1 → 400 * ((L.length + 5) * u) ≤ 1 → |m 2 - recVar L| ≤ 400 * ((L.length + 5) * u) * B ^ 2

end Cmomy.Spec
