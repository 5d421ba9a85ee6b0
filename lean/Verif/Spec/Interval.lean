import Mathlib.Algebra.Order.Field.Basic
import Mathlib.Algebra.Order.Floor.Defs
import Mathlib.Data.List.Count

/-!
# Specification vocabulary: order statistics and quantiles
-/

namespace Cmomy.Spec

variable {K : Type*} [Field K] [LinearOrder K]

/-- How many data lie strictly below `v`. -/
def countLt (xs : List K) (v : K) : ℕ := xs.countP (fun x => decide (x < v))

/-- How many data lie at or below `v`. -/
def countLe (xs : List K) (v : K) : ℕ := xs.countP (fun x => decide (x ≤ v))

/-- How many data lie strictly above `v`. -/
def countGt (xs : List K) (v : K) : ℕ := xs.countP (fun x => decide (v < x))

/-- `v` is the `k`-th smallest datum, counted from 0: at most `k` data lie below it and more than
`k` at or below it. -/
def IsOrderStat (xs : List K) (k : ℕ) (v : K) : Prop :=
  v ∈ xs ∧ countLt xs v ≤ k ∧ k < countLe xs v

/-- `r` is the quantile of level `q` of `n` data by linear interpolation: with
`(n - 1) q = k + t`, `0 ≤ t < 1`, it divides the gap between the `k`-th and the `k+1`-st smallest
datum in the ratio `t : 1 - t`. -/
def IsQuantile (xs : List K) (q r : K) : Prop :=
  ∃ (k : ℕ) (t a b : K), ((xs.length : K) - 1) * q = k + t ∧ 0 ≤ t ∧ t < 1 ∧
    IsOrderStat xs k a ∧ (t = 0 ∨ IsOrderStat xs (k + 1) b) ∧ r = a + t * (b - a)

/-- A list of levels in `[0, 1]`. -/
def Levels (qs : List K) : Prop := ∀ q ∈ qs, 0 ≤ q ∧ q ≤ 1

end Cmomy.Spec
