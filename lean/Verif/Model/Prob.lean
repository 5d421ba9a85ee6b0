import Mathlib.Analysis.SpecialFunctions.Log.Basic
import Mathlib.Analysis.SpecialFunctions.Pow.Real
import Mathlib.MeasureTheory.Integral.IntervalIntegral.Basic
import Mathlib.Data.EReal.Basic
import Verif.Model.Interval

/-!
# The standard normal distribution function and its inverse

`core/prob.py:19-73`, one entry of the array. Simplification: real numbers; the decimal constants
stand for themselves.
-/

namespace Cmomy.Prob

open Real

/-- Contract of `math.erf`. -/
noncomputable def erf (x : ℝ) : ℝ := 2 / √π * ∫ t in (0 : ℝ)..x, rexp (-t ^ 2)

/-- `prob.py:19-24` `ndtr` -/
noncomputable def ndtr (x : ℝ) : ℝ := 0.5 * (1 + erf (x / √2))

/-- `prob.py:42-45`, `64-67`: numerator of the tails. -/
noncomputable def tailNum (t : ℝ) : ℝ :=
  ((((-7.784894002430293e-03 * t - 3.223964580411365e-01) * t
    - 2.400758277161838e00) * t - 2.549732539343734e00) * t
    + 4.374664141464968e00) * t + 2.938163982698783e00

/-- `prob.py:46-47`, `68-69`: denominator of the tails. -/
noncomputable def tailDen (t : ℝ) : ℝ :=
  (((7.784695709041462e-03 * t + 3.224671290700398e-01) * t
    + 2.445134137142996e00) * t + 3.754408661907416e00) * t + 1

/-- `prob.py:53-56`: numerator of the middle, `q = p - 0.5`. -/
noncomputable def midNum (q : ℝ) : ℝ :=
  let sq := q * q
  (((((-3.969683028665376e01 * sq + 2.209460984245205e02) * sq
    - 2.759285104469687e02) * sq + 1.383577518672690e02) * sq
    - 3.066479806614716e01) * sq + 2.506628277459239e00) * q

/-- `prob.py:57-59`: denominator of the middle. -/
noncomputable def midDen (q : ℝ) : ℝ :=
  let sq := q * q
  ((((-5.447609879822406e01 * sq + 1.615858368580409e02) * sq
    - 1.556989798598866e02) * sq + 6.680131188771972e01) * sq
    - 1.328068155288572e01) * sq + 1

/-- `prob.py:36-73` `ndtri(p)`: `out = np.empty_like(p)` holds `junk`, then five masked assignments. -/
noncomputable def ndtri (junk : EReal) (p : ℝ) : EReal :=
  let out := junk
  let oix1 := √(-2 * log p)
  let out := if p < 0.02425 ∧ p > 0 then ((tailNum oix1 / tailDen oix1 : ℝ) : EReal) else out
  let oix2 := p - 0.5
  let out := if p ≥ 0.02425 ∧ p ≤ 0.97575 then ((midNum oix2 / midDen oix2 : ℝ) : EReal) else out
  let oix3 := √(-2 * log (1 - p))
  let out := if p > 0.97575 ∧ p < 1 then ((-(tailNum oix3 / tailDen oix3) : ℝ) : EReal) else out
  let out := if p = 0 then ⊥ else out
  if p = 1 then ⊤ else out

/-- `confidence_interval.py:303-350` with these functions: an infinite `ndtri` is `none`. -/
noncomputable def normal (junk : EReal) : NormalFns ℝ where
  ndtr := ndtr
  ndtri p := match ndtri junk p with
    | ⊥ => none
    | ⊤ => none
    | (r : ℝ) => some r
  pow32 x := x ^ (1.5 : ℝ)

end Cmomy.Prob
