import Verif.Model.Prob
import Mathlib.Analysis.Calculus.Deriv.Polynomial
import Mathlib.Analysis.Calculus.Deriv.MeanValue
import Mathlib.Analysis.SpecialFunctions.Exp
import Mathlib.Analysis.SpecialFunctions.Exponential
import Mathlib.Analysis.Complex.ExponentialBounds
import Mathlib.Analysis.SpecialFunctions.Log.Deriv

/-!
# Polynomial inequalities behind the inverse normal distribution function
-/

namespace Cmomy.Prob

open Real

/-! ### The middle -/

/-- Positive Bernstein coefficients on `[0, 0.2264]`. -/
theorem midDen_pos {q : ℝ} (h : q * q ≤ 0.2264) : 0 < midDen q := by
  have hs : 0 ≤ q * q := mul_self_nonneg q
  unfold midDen
  generalize q * q = s at *
  have hu : 0 ≤ 0.2264 - s := by linarith
  have key : (0.2264 : ℝ) ^ 5 * (((((-5.447609879822406e01 * s + 1.615858368580409e02) * s
    - 1.556989798598866e02) * s + 6.680131188771972e01) * s
    - 1.328068155288572e01) * s + 1) =
    1 * (s ^ 0 * (0.2264 - s) ^ 5) +
    62289178013333531 / 31250000000000000 * (s ^ 1 * (0.2264 - s) ^ 4) +
    54572146761057271377 / 39062500000000000000 * (s ^ 2 * (0.2264 - s) ^ 3) +
    4148418824624764968779 / 9765625000000000000000 * (s ^ 3 * (0.2264 - s) ^ 2) +
    1367203919106065536599689 / 24414062500000000000000000 * (s ^ 4 * (0.2264 - s) ^ 1) +
    395603922831896700882344721 / 152587890625000000000000000000 * (s ^ 5 * (0.2264 - s) ^ 0) := by
    ring
  have hpos : 0 < (0.2264 : ℝ) ^ 5 * (((((-5.447609879822406e01 * s + 1.615858368580409e02) * s
    - 1.556989798598866e02) * s + 6.680131188771972e01) * s
    - 1.328068155288572e01) * s + 1) := by
    rw [key]
    rcases hs.eq_or_lt with rfl | hs
    · norm_num
    · have : 0 ≤ 0.2264 - s := hu
      positivity
  exact pos_of_mul_pos_right hpos (by norm_num)

/-- Numerator of the derivative of the middle, as a polynomial in `s = q²`. -/
noncomputable def midSlope (s : ℝ) : ℝ :=
    (2506628277459239 / 1000000000000000) * s ^ 0 +
    (-1467616556851171409570746870823 / 25000000000000000000000000000) * s ^ 1 +
    (14917500132224862196368982826899 / 25000000000000000000000000000) * s ^ 2 +
    (-17220546169317680198631624152789 / 5000000000000000000000000000) * s ^ 3 +
    (123949048885687424966489278792063 / 10000000000000000000000000000) * s ^ 4 +
    (-1436395996320610844673762418883947 / 50000000000000000000000000000) * s ^ 5 +
    (26712870659317796854535778075311 / 625000000000000000000000000) * s ^ 6 +
    (-98734391745036439414984049986001 / 2500000000000000000000000000) * s ^ 7 +
    (5377753430473204552275718996441 / 250000000000000000000000000) * s ^ 8 +
    (-3603527570292699114381836796561 / 500000000000000000000000000) * s ^ 9 +
    (337895070105013025370657518979 / 156250000000000000000000000) * s ^ 10

theorem midSlope_pos {s : ℝ} (hs : 0 ≤ s) (h : s ≤ 0.2264) : 0 < midSlope s := by
  unfold midSlope
  have hu : 0 ≤ 0.2264 - s := by linarith
  have key : (0.2264 : ℝ) ^ 10 * (
    (2506628277459239 / 1000000000000000) * s ^ 0 +
    (-1467616556851171409570746870823 / 25000000000000000000000000000) * s ^ 1 +
    (14917500132224862196368982826899 / 25000000000000000000000000000) * s ^ 2 +
    (-17220546169317680198631624152789 / 5000000000000000000000000000) * s ^ 3 +
    (123949048885687424966489278792063 / 10000000000000000000000000000) * s ^ 4 +
    (-1436395996320610844673762418883947 / 50000000000000000000000000000) * s ^ 5 +
    (26712870659317796854535778075311 / 625000000000000000000000000) * s ^ 6 +
    (-98734391745036439414984049986001 / 2500000000000000000000000000) * s ^ 7 +
    (5377753430473204552275718996441 / 250000000000000000000000000) * s ^ 8 +
    (-3603527570292699114381836796561 / 500000000000000000000000000) * s ^ 9 +
    (337895070105013025370657518979 / 156250000000000000000000000) * s ^ 10) =
    2506628277459239 / 1000000000000000 * (s ^ 0 * (0.2264 - s) ^ 10) +
    367985851117130678591478635557091 / 31250000000000000000000000000000 * (s ^ 1 * (0.2264 - s) ^ 9) +
    928385974186158567911630115640787761 / 39062500000000000000000000000000000 * (s ^ 2 * (0.2264 - s) ^ 8) +
    264079236782423820685942675727622515457 / 9765625000000000000000000000000000000 * (s ^ 3 * (0.2264 - s) ^ 7) +
    467377823788278187191527611114484567048523 / 24414062500000000000000000000000000000000 * (s ^ 4 * (0.2264 - s) ^ 6) +
    1340405948280038036959914698513174339254642579 / 152587890625000000000000000000000000000000000 * (s ^ 5 * (0.2264 - s) ^ 5) +
    50364147621043489745516529668883554368548463497 / 19073486328125000000000000000000000000000000000 * (s ^ 6 * (0.2264 - s) ^ 4) +
    6111471884537154508597176887946721506445079750523 / 11920928955078125000000000000000000000000000000000 * (s ^ 7 * (0.2264 - s) ^ 3) +
    22930861881975616098455096036079794530016952421039 / 372529029846191406250000000000000000000000000000000 * (s ^ 8 * (0.2264 - s) ^ 2) +
    15390964311739369927714964032711038001357351583494117 / 3725290298461914062500000000000000000000000000000000000 * (s ^ 9 * (0.2264 - s) ^ 1) +
    1376649055238658088371000753717581248019651527926613693 / 11641532182693481445312500000000000000000000000000000000000 * (s ^ 10 * (0.2264 - s) ^ 0) := by
    ring
  refine pos_of_mul_pos_right (a := (0.2264 : ℝ) ^ 10) ?_ (by norm_num)
  rw [key]
  rcases hs.eq_or_lt with rfl | hs
  · norm_num
  · positivity

/-! ### The tails -/

theorem tailDen_pos {t : ℝ} (h : 0 ≤ t) : 0 < tailDen t := by
  unfold tailDen
  positivity

/-- Numerator of the derivative of the tails, about `t = 2.7`. -/
noncomputable def tailSlope (u : ℝ) : ℝ :=
    74219134979948246920127183558705189573019242023 / 50000000000000000000000000000000000000000000 * u ^ 0 +
    1212445158659774099656578789074155369988713399 / 625000000000000000000000000000000000000000 * u ^ 1 +
    131372071997712781815854183227157833502502909 / 125000000000000000000000000000000000000000 * u ^ 2 +
    1899538689857207109750656919761519325832117 / 6250000000000000000000000000000000000000 * u ^ 3 +
    25200087427104174036780635355318304090921 / 500000000000000000000000000000000000000 * u ^ 4 +
    299735865386676551622555781302104053673 / 62500000000000000000000000000000000000 * u ^ 5 +
    3120509824277262338633671013701907349 / 12500000000000000000000000000000000000 * u ^ 6 +
    3956106441484668180924628068989691 / 625000000000000000000000000000000000 * u ^ 7 +
    30301515468030857381920750904183 / 500000000000000000000000000000000000 * u ^ 8

theorem tailSlope_pos {u : ℝ} (h : 0 ≤ u) : 0 < tailSlope u := by
  unfold tailSlope
  positivity

open Polynomial in
theorem hasDerivAt_mid {q : ℝ} (h : midDen q ≠ 0) :
    HasDerivAt (fun q => midNum q / midDen q) (midSlope (q * q) / midDen q ^ 2) q := by
  have h1 := (((((((C (-3.969683028665376e01 : ℝ) * (X * X) + C 2.209460984245205e02) * (X * X)
    - C 2.759285104469687e02) * (X * X) + C 1.383577518672690e02) * (X * X)
    - C 3.066479806614716e01) * (X * X) + C 2.506628277459239e00) * X : ℝ[X])).hasDerivAt q
  have h2 := ((((((C (-5.447609879822406e01 : ℝ) * (X * X) + C 1.615858368580409e02) * (X * X)
    - C 1.556989798598866e02) * (X * X) + C 6.680131188771972e01) * (X * X)
    - C 1.328068155288572e01) * (X * X) + C 1 : ℝ[X])).hasDerivAt q
  simp only [eval_add, eval_sub, eval_mul, eval_C, eval_X] at h1 h2
  have h3 := HasDerivAt.div (c := midNum) (d := midDen) h1 h2 h
  refine h3.congr_deriv ?_
  simp only [derivative_add, derivative_sub, derivative_mul, derivative_C, derivative_X, eval_add,
    eval_sub, eval_mul, eval_C, eval_X, eval_zero, eval_one]
  congr 1
  unfold midSlope midNum midDen
  ring

open Polynomial in
theorem hasDerivAt_tail {t : ℝ} (h : tailDen t ≠ 0) :
    HasDerivAt (fun t => tailNum t / tailDen t) (-(tailSlope (t - 2.7)) / tailDen t ^ 2) t := by
  have h1 := (((((C (-7.784894002430293e-03 : ℝ) * X - C 3.223964580411365e-01) * X
    - C 2.400758277161838e00) * X - C 2.549732539343734e00) * X
    + C 4.374664141464968e00) * X + C 2.938163982698783e00 : ℝ[X]).hasDerivAt t
  have h2 := ((((C (7.784695709041462e-03 : ℝ) * X + C 3.224671290700398e-01) * X
    + C 2.445134137142996e00) * X + C 3.754408661907416e00) * X + C 1 : ℝ[X]).hasDerivAt t
  simp only [eval_add, eval_sub, eval_mul, eval_C, eval_X] at h1 h2
  have h3 := HasDerivAt.div (c := tailNum) (d := tailDen) h1 h2 h
  refine h3.congr_deriv ?_
  simp only [derivative_add, derivative_sub, derivative_mul, derivative_C, derivative_X, eval_add,
    eval_sub, eval_mul, eval_C, eval_X, eval_zero, eval_one]
  congr 1
  unfold tailSlope tailNum tailDen
  ring

/-- Value of the middle rational function. -/
noncomputable def mid (q : ℝ) : ℝ := midNum q / midDen q

/-- Value of the tail rational function. -/
noncomputable def tail (t : ℝ) : ℝ := tailNum t / tailDen t

theorem sq_le {q : ℝ} (h1 : -0.47575 ≤ q) (h2 : q ≤ 0.47575) : q * q ≤ 0.2264 := by nlinarith

theorem mid_strictMonoOn : StrictMonoOn mid (Set.Icc (-0.47575) 0.47575) := by
  refine strictMonoOn_of_deriv_pos (convex_Icc _ _) ?_ ?_
  · intro q hq
    exact (hasDerivAt_mid (midDen_pos (sq_le hq.1 hq.2)).ne').continuousAt.continuousWithinAt
  · intro q hq
    rw [interior_Icc] at hq
    have hs := sq_le hq.1.le hq.2.le
    have hd := midDen_pos hs
    rw [show mid = fun q => midNum q / midDen q from rfl, (hasDerivAt_mid hd.ne').deriv]
    exact div_pos (midSlope_pos (mul_self_nonneg q) hs) (by positivity)

theorem mid_neg (q : ℝ) : mid (-q) = -mid q := by
  unfold mid midNum midDen
  rw [show -q * -q = q * q by ring, mul_neg, neg_div]

theorem mid_zero : mid 0 = 0 := by unfold mid midNum; simp

theorem tail_strictAntiOn : StrictAntiOn tail (Set.Ici 2.7) := by
  refine strictAntiOn_of_deriv_neg (convex_Ici _) ?_ ?_
  · intro t ht
    exact (hasDerivAt_tail (tailDen_pos (le_trans (by norm_num) ht)).ne').continuousAt.continuousWithinAt
  · intro t ht
    rw [interior_Ici] at ht
    have hd := tailDen_pos (le_trans (by norm_num) (le_of_lt ht) : (0 : ℝ) ≤ t)
    rw [show tail = fun t => tailNum t / tailDen t from rfl, (hasDerivAt_tail hd.ne').deriv]
    have := tailSlope_pos (sub_nonneg.2 (le_of_lt ht) : (0 : ℝ) ≤ t - 2.7)
    exact div_neg_of_neg_of_pos (neg_neg_of_pos this) (by positivity)

/-! ### The seam -/

theorem exp_seam : rexp (4 * 0.9298346653) ≤ 4000 / 97 := by
  have h := Real.exp_bound (x := 0.9298346653) (by norm_num [abs_of_pos]) (n := 14) (by norm_num)
  have h1 := (abs_sub_le_iff.1 h).1
  simp only [Finset.sum_range_succ, Finset.sum_range_zero, Nat.factorial, Nat.succ_eq_add_one] at h1
  rw [abs_of_pos (by norm_num)] at h1
  have h2 : rexp 0.9298346653 ≤ 2.53409017005 := by
    norm_num at h1 ⊢
    linarith
  rw [show (4 * 0.9298346653 : ℝ) = ((4 : ℕ) : ℝ) * 0.9298346653 by norm_num, Real.exp_nat_mul]
  calc rexp 0.9298346653 ^ 4 ≤ 2.53409017005 ^ 4 := by gcongr
    _ ≤ 4000 / 97 := by norm_num

theorem seam_le {p : ℝ} (h0 : 0 < p) (h : p < 0.02425) : 2.72739387 < √(-2 * log p) := by
  have h1 : log p < -(4 * 0.9298346653) := by
    rw [Real.log_lt_iff_lt_exp h0, Real.exp_neg]
    refine h.trans_le ?_
    rw [le_inv_comm₀ (by norm_num) (Real.exp_pos _)]
    exact exp_seam.trans (by norm_num)
  rw [Real.lt_sqrt (by norm_num)]
  norm_num
  norm_num at h1
  linarith

theorem tail_seam : tail 2.72739387 < -1.972961051 := by
  unfold tail tailNum tailDen
  norm_num

theorem mid_seam : -1.972961051 < mid (-0.47575) := by
  unfold mid midNum midDen
  norm_num

end Cmomy.Prob
