import Verif.Lemmas.Prob
import Verif.Props.Interval
import Mathlib.Probability.Distributions.Gaussian.Real
import Mathlib.Probability.CDF
import Mathlib.Analysis.SpecialFunctions.Gaussian.GaussianIntegral
import Mathlib.MeasureTheory.Integral.IntegralEqImproper

/-!
# C53: the normal distribution function and its inverse
-/

namespace Cmomy

open Prob Real Spec MeasureTheory ProbabilityTheory

/-! ### The branches -/

private theorem low {p : ℝ} (h0 : 0 < p) (h : p < 0.02425) (junk : EReal) :
    ndtri junk p = (tail √(-2 * log p) : ℝ) := by
  unfold ndtri
  rw [if_neg (by linarith), if_neg h0.ne', if_neg (by rintro ⟨h, -⟩; linarith),
    if_neg (by rintro ⟨h, -⟩; linarith), if_pos ⟨h, h0⟩]
  rfl

private theorem middle {p : ℝ} (h0 : 0.02425 ≤ p) (h : p ≤ 0.97575) (junk : EReal) :
    ndtri junk p = (mid (p - 0.5) : ℝ) := by
  unfold ndtri
  rw [if_neg (by linarith), if_neg (by intro h; linarith), if_neg (by rintro ⟨h, -⟩; linarith),
    if_pos ⟨h0, h⟩]
  rfl

private theorem high {p : ℝ} (h0 : 0.97575 < p) (h : p < 1) (junk : EReal) :
    ndtri junk p = (-tail √(-2 * log (1 - p)) : ℝ) := by
  unfold ndtri
  rw [if_neg h.ne, if_neg (by intro h; linarith), if_pos ⟨h0, h⟩]
  rfl

private theorem at_zero (junk : EReal) : ndtri junk 0 = ⊥ := by
  unfold ndtri
  rw [if_neg (by norm_num), if_pos rfl]

private theorem at_one (junk : EReal) : ndtri junk 1 = ⊤ := by
  unfold ndtri
  rw [if_pos rfl]

/-- **C53.** Every probability is covered: the uninitialised memory the result starts from never
shows. -/
theorem C53_defined {p : ℝ} (h0 : 0 ≤ p) (h1 : p ≤ 1) (junk junk' : EReal) :
    ndtri junk p = ndtri junk' p := by
  rcases h0.eq_or_lt with rfl | h0
  · rw [at_zero, at_zero]
  rcases h1.eq_or_lt with rfl | h1
  · rw [at_one, at_one]
  rcases lt_or_ge p 0.02425 with h | h
  · rw [low h0 h, low h0 h]
  rcases le_or_gt p 0.97575 with h' | h'
  · rw [middle h h', middle h h']
  · rw [high h' h1, high h' h1]

/-- **C53.** Outside `[0, 1]` no branch applies: the result is whatever the memory held (scipy's
function gives `nan` there). -/
theorem C53_outside {p : ℝ} (h : p < 0 ∨ 1 < p) (junk : EReal) : ndtri junk p = junk := by
  unfold ndtri
  rcases h with h | h
  · rw [if_neg (by linarith), if_neg h.ne, if_neg (by rintro ⟨h, -⟩; linarith),
      if_neg (by rintro ⟨h, -⟩; linarith), if_neg (by rintro ⟨-, h⟩; linarith)]
  · rw [if_neg h.ne', if_neg (by intro h; linarith), if_neg (by rintro ⟨-, h⟩; linarith),
      if_neg (by rintro ⟨-, h⟩; linarith), if_neg (by rintro ⟨h, -⟩; linarith)]

/-- **C53.** The ends are infinite, everything between is finite. -/
theorem C53_finite (junk : EReal) :
    ndtri junk 0 = ⊥ ∧ ndtri junk 1 = ⊤ ∧ ∀ p : ℝ, 0 < p → p < 1 → ∃ r : ℝ, ndtri junk p = r := by
  refine ⟨at_zero _, at_one _, fun p h0 h1 => ?_⟩
  rcases lt_or_ge p 0.02425 with h | h
  · exact ⟨_, low h0 h _⟩
  rcases le_or_gt p 0.97575 with h' | h'
  · exact ⟨_, middle h h' _⟩
  · exact ⟨_, high h' h1 _⟩

/-- **C53.** Symmetry about one half. -/
theorem C53_symmetric {p : ℝ} (h0 : 0 ≤ p) (h1 : p ≤ 1) (junk : EReal) :
    ndtri junk (1 - p) = -ndtri junk p := by
  rcases h0.eq_or_lt with rfl | h0
  · rw [at_zero, sub_zero, at_one, EReal.neg_bot]
  rcases h1.eq_or_lt with rfl | h1
  · rw [at_one, sub_self, at_zero, EReal.neg_top]
  rcases lt_or_ge p 0.02425 with h | h
  · rw [low h0 h, high (by linarith) (by linarith), EReal.coe_neg, sub_sub_cancel]
  rcases le_or_gt p 0.97575 with h' | h'
  · rw [middle h h', middle (by linarith) (by linarith), ← EReal.coe_neg, ← mid_neg]
    congr 2
    ring
  · rw [high h' h1, low (by linarith) (by linarith), EReal.coe_neg, neg_neg]

/-- **C53.** The median is zero. -/
theorem C53_half (junk : EReal) : ndtri junk 0.5 = (0 : ℝ) := by
  rw [middle (by norm_num) (by norm_num), sub_self, mid_zero]

private theorem low_lt {p : ℝ} (h0 : 0 < p) (h : p < 0.02425) :
    tail √(-2 * log p) < -1.972961051 := by
  refine lt_trans ?_ tail_seam
  have := seam_le h0 h
  exact tail_strictAntiOn (by norm_num) (Set.mem_Ici.2 (by linarith)) this

private theorem mid_ge {q : ℝ} (h0 : -0.47575 ≤ q) (h : q ≤ 0.47575) : -1.972961051 < mid q := by
  refine mid_seam.trans_le ?_
  exact mid_strictMonoOn.monotoneOn ⟨le_rfl, by norm_num⟩ ⟨h0, h⟩ h0

private theorem low_mono {p q : ℝ} (h0 : 0 < p) (hpq : p < q) (h : q < 0.02425) :
    tail √(-2 * log p) < tail √(-2 * log q) := by
  have hp := seam_le h0 (hpq.trans h)
  have hq := seam_le (h0.trans hpq) h
  refine tail_strictAntiOn (Set.mem_Ici.2 (by linarith)) (Set.mem_Ici.2 (by linarith)) ?_
  have hl := Real.log_lt_log h0 hpq
  have hl' : log q < 0 := Real.log_neg (h0.trans hpq) (by linarith)
  exact Real.sqrt_lt_sqrt (by linarith) (by linarith)

private theorem mono_left {p q : ℝ} (h0 : 0 < p) (hpq : p < q) (h : q ≤ 0.97575) (junk : EReal) :
    ndtri junk p < ndtri junk q := by
  rcases lt_or_ge q 0.02425 with hq | hq
  · rw [low h0 (hpq.trans hq), low (h0.trans hpq) hq, EReal.coe_lt_coe_iff]
    exact low_mono h0 hpq hq
  rw [middle hq h]
  rcases lt_or_ge p 0.02425 with hp | hp
  · rw [low h0 hp, EReal.coe_lt_coe_iff]
    exact (low_lt h0 hp).trans (mid_ge (by linarith) (by linarith))
  · rw [middle hp (by linarith), EReal.coe_lt_coe_iff]
    exact mid_strictMonoOn ⟨by linarith, by linarith⟩ ⟨by linarith, by linarith⟩ (by linarith)

/-- **C53.** Strictly increasing on all of `[0, 1]`, the seams between the branches included. -/
theorem C53_increasing {p q : ℝ} (h0 : 0 ≤ p) (hpq : p < q) (h1 : q ≤ 1) (junk : EReal) :
    ndtri junk p < ndtri junk q := by
  have hfin := (C53_finite junk).2.2
  rcases h0.eq_or_lt with rfl | h0
  · rw [at_zero]
    rcases h1.eq_or_lt with rfl | h1
    · rw [at_one]; exact bot_lt_top
    · obtain ⟨r, hr⟩ := hfin q hpq h1
      rw [hr]; exact EReal.bot_lt_coe r
  rcases h1.eq_or_lt with rfl | h1
  · obtain ⟨r, hr⟩ := hfin p h0 hpq
    rw [at_one, hr]; exact EReal.coe_lt_top r
  rcases le_or_gt q 0.97575 with h | h
  · exact mono_left h0 hpq h junk
  rcases lt_or_ge p 0.02425 with hp | hp
  · refine (mono_left h0 (lt_of_lt_of_le hp (by norm_num : (0.02425 : ℝ) ≤ 0.5)) (by norm_num) junk).trans ?_
    have := mono_left (p := 1 - q) (q := 0.5) (by linarith) (by linarith) (by norm_num) junk
    rw [C53_symmetric (by linarith) h1.le, C53_half] at this
    rw [C53_half]
    rw [EReal.neg_lt_comm] at this
    simpa using this
  · have := mono_left (p := 1 - q) (q := 1 - p) (by linarith) (by linarith) (by linarith) junk
    rw [C53_symmetric (by linarith) h1.le, C53_symmetric h0.le (by linarith)] at this
    exact EReal.neg_lt_neg_iff.1 this

/-- **C53.** The branches do not meet: the function jumps at `p = 0.02425`, and some numbers are the
quantile of no probability. -/
theorem C53_jump {p : ℝ} (h0 : 0 ≤ p) (h1 : p ≤ 1) (junk : EReal) :
    ndtri junk p ≠ (-1.972961051 : ℝ) := by
  rcases h0.eq_or_lt with rfl | h0
  · rw [at_zero]; exact EReal.bot_ne_coe _
  rcases lt_or_ge p 0.02425 with h | h
  · rw [low h0 h, Ne, EReal.coe_eq_coe_iff]
    exact (low_lt h0 h).ne
  · have h2 : ndtri junk 0.02425 ≤ ndtri junk p := by
      rcases h.eq_or_lt with rfl | h
      · exact le_rfl
      · exact (C53_increasing (by norm_num) h h1 junk).le
    rw [middle le_rfl (by norm_num)] at h2
    refine (lt_of_lt_of_le ?_ h2).ne'
    rw [EReal.coe_lt_coe_iff]
    exact mid_ge (by norm_num) (by norm_num)

/-! ### The distribution function -/

private theorem ndtr_eq (x : ℝ) : ndtr x = 1 / 2 + (√(2 * π))⁻¹ * ∫ t in (0 : ℝ)..x, rexp (-(1 / 2 : ℝ) * t ^ 2) := by
  unfold ndtr erf
  have h2 : (√2 : ℝ) ≠ 0 := by positivity
  have h := intervalIntegral.integral_comp_div (a := 0) (b := x) (fun t => rexp (-t ^ 2)) h2
  rw [zero_div] at h
  have h3 : (∫ t in (0 : ℝ)..x / √2, rexp (-t ^ 2)) =
      (√2)⁻¹ * ∫ t in (0 : ℝ)..x, rexp (-(1 / 2 : ℝ) * t ^ 2) := by
    rw [eq_inv_mul_iff_mul_eq₀ h2, ← smul_eq_mul, ← h]
    congr 1; funext t
    congr 1
    rw [div_pow, Real.sq_sqrt (by norm_num)]
    ring
  rw [h3, Real.sqrt_mul (by norm_num)]
  have hpi : √π ≠ 0 := by positivity
  field_simp
  ring

/-- **C53.** `ndtr` is the distribution function of the standard normal distribution. -/
theorem C53_ndtr_cdf (x : ℝ) : ndtr x = cdf (gaussianReal 0 1) x := by
  have hi : Integrable (fun t : ℝ => rexp (-(1 / 2 : ℝ) * t ^ 2)) :=
    integrable_exp_neg_mul_sq (by norm_num)
  rw [ndtr_eq, cdf_eq_real, measureReal_def, gaussianReal_apply_eq_integral _ (by norm_num),
    ENNReal.toReal_ofReal (setIntegral_nonneg measurableSet_Iic (fun _ _ => gaussianPDFReal_nonneg _ _ _))]
  have hpdf : gaussianPDFReal 0 1 = fun t => (√(2 * π))⁻¹ * rexp (-(1 / 2 : ℝ) * t ^ 2) := by
    funext t
    unfold gaussianPDFReal
    congr 2
    · simp
    · simp; ring
  have hI : (∫ t in Set.Iic (0 : ℝ), rexp (-(1 / 2 : ℝ) * t ^ 2)) = √(2 * π) / 2 := by
    have h1 := integral_gaussian_Ioi (1 / 2)
    have h2 := integral_comp_neg_Iic (0 : ℝ) (fun t => rexp (-(1 / 2 : ℝ) * t ^ 2))
    simp only [neg_zero, neg_sq] at h2
    rw [h2, h1]
    congr 2; ring
  rw [hpdf, integral_const_mul, intervalIntegral.integral_Iic_sub_Iic hi.integrableOn hi.integrableOn |>.symm, hI]
  have : √(2 * π) ≠ 0 := by positivity
  field_simp
  ring

/-- **C53.** `ndtr` is strictly increasing, symmetric, and strictly between 0 and 1. -/
theorem C53_ndtr :
    StrictMono ndtr ∧ (∀ x, ndtr (-x) = 1 - ndtr x) ∧ ndtr 0 = 1 / 2 ∧ ∀ x, 0 < ndtr x ∧ ndtr x < 1 := by
  have hm : StrictMono ndtr := by
    intro x y h
    rw [ndtr_eq, ndtr_eq]
    have hc : Continuous (fun t : ℝ => rexp (-(1 / 2 : ℝ) * t ^ 2)) := by fun_prop
    have hi := intervalIntegral.integral_add_adjacent_intervals (μ := volume) (a := 0) (b := x)
      (c := y)      (hc.intervalIntegrable 0 x) (hc.intervalIntegrable x y)
    have hp : 0 < ∫ t in x..y, rexp (-(1 / 2 : ℝ) * t ^ 2) :=
      intervalIntegral.intervalIntegral_pos_of_pos (hc.intervalIntegrable x y)
        (fun t => Real.exp_pos _) h
    have h2 : 0 < (√(2 * π))⁻¹ := by positivity
    rw [← hi]
    nlinarith [mul_pos h2 hp]
  have hs : ∀ x, ndtr (-x) = 1 - ndtr x := by
    intro x
    rw [ndtr_eq, ndtr_eq]
    have h := intervalIntegral.integral_comp_neg (a := 0) (b := x)
      (fun t : ℝ => rexp (-(1 / 2 : ℝ) * t ^ 2))
    simp only [neg_zero, neg_sq] at h
    rw [intervalIntegral.integral_symm, ← h]
    ring
  refine ⟨hm, hs, ?_, fun x => ?_⟩
  · have := hs 0
    rw [neg_zero] at this
    linarith
  · have h0 : ∀ x, 0 ≤ ndtr x := fun x => by
      rw [C53_ndtr_cdf]; exact cdf_nonneg _ x
    have h1 : ∀ x, ndtr x ≤ 1 := fun x => by
      rw [C53_ndtr_cdf]; exact cdf_le_one _ x
    exact ⟨(h0 (x - 1)).trans_lt (hm (by linarith)), (hm (by linarith : x < x + 1)).trans_le (h1 _)⟩

/-! ### The `bca` interval with these functions -/

private theorem normal_ndtri {junk : EReal} {p r : ℝ} (h : ndtri junk p = r) :
    (normal junk).ndtri p = some r := by
  simp only [normal, h]
  rfl

private theorem normal_some {junk : EReal} {p r : ℝ} (h : (normal junk).ndtri p = some r) :
    ndtri junk p = r := by
  simp only [normal] at h
  induction hp : ndtri junk p with
  | bot => rw [hp] at h; cases h
  | top => rw [hp] at h; cases h
  | coe x =>
    rw [hp] at h
    have : some x = some r := h
    rw [Option.some.inj this]

private theorem normal_01 (junk : EReal) (x : ℝ) :
    0 ≤ (normal junk).ndtr x ∧ (normal junk).ndtr x ≤ 1 :=
  ⟨((C53_ndtr.2.2.2 x).1).le, ((C53_ndtr.2.2.2 x).2).le⟩

private theorem sum_sq_pos {l : List ℝ} (h : ∃ d ∈ l, d ≠ 0) : 0 < (l.map fun d => d ^ 2).sum := by
  have hn : ∀ l : List ℝ, 0 ≤ (l.map fun d => d ^ 2).sum := by
    intro l
    refine List.sum_nonneg ?_
    intro x hx
    obtain ⟨y, -, rfl⟩ := List.mem_map.1 hx
    positivity
  induction l with
  | nil => simp at h
  | cons a l ih =>
    rw [List.map_cons, List.sum_cons]
    obtain ⟨d, hd, h0⟩ := h
    rcases List.mem_cons.1 hd with rfl | hd
    · have := hn l
      positivity
    · have := ih ⟨d, hd, h0⟩
      positivity

/-- **C53.** When `bca` has finite results: the estimate lies properly among the replicates, the
jackknife values are not all equal, the levels are strictly between 0 and 1, and no adjusted level
meets the pole `1 = a (z0 + z)`. -/
theorem C53_bca_defined (junk : EReal) {boot : List ℝ} (hne : boot ≠ []) {th : ℝ}
    (h0 : 0 < percentileOfScore boot th) (h1 : percentileOfScore boot th < 1) {tj : List ℝ}
    (htj : ∃ s ∈ tj, ∃ t ∈ tj, s ≠ t) {alphas : List ℝ} (hal : ∀ q ∈ alphas, 0 < q ∧ q < 1)
    {method : String} (hb : method.toLower = "bca")
    (hpole : ∀ a z0 z : ℝ, computeA (normal junk) tj = some a →
      ndtri junk (percentileOfScore boot th) = z0 → (∃ q ∈ alphas, ndtri junk q = z) →
      1 - a * (z0 + z) ≠ 0) :
    ∃ ci, bootCI (normal junk) boot (some th) (some tj) alphas method = .ok (some ci) := by
  obtain ⟨z0, hz0⟩ := (C53_finite junk).2.2 _ h0 h1
  have ha : ∃ a, computeA (normal junk) tj = some a := by
    unfold computeA
    have hne : tj ≠ [] := by
      obtain ⟨s, hs, -⟩ := htj
      exact List.ne_nil_of_mem hs
    have hpos : 0 < ((tj.map fun t => tj.sum / (tj.length : ℝ) - t).map fun d => d ^ 2).sum := by
      refine sum_sq_pos ?_
      by_contra hcon
      push Not at hcon
      obtain ⟨s, hs, t, ht, hst⟩ := htj
      have h1 := hcon _ (List.mem_map_of_mem hs)
      have h2 := hcon _ (List.mem_map_of_mem ht)
      exact hst (by linarith)
    have hd : 6 * (normal junk).pow32 (((tj.map fun t => tj.sum / (tj.length : ℝ) - t).map
        fun d => d ^ 2).sum) ≠ 0 := by
      simp only [normal]
      have := Real.rpow_pos_of_pos hpos 1.5
      positivity
    simp only [List.isEmpty_iff, hne, hd, or_self, if_false]
    exact ⟨_, rfl⟩
  obtain ⟨a, ha⟩ := ha
  have hz : computeZ0 (normal junk) th boot = some z0 := normal_ndtri hz0
  have hm : ∃ av, alphas.mapM (bcaLevel (normal junk) a z0) = some av := by
    have hq : ∀ q ∈ alphas, ∃ v, bcaLevel (normal junk) a z0 q = some v := by
      intro q hq
      obtain ⟨z, hz⟩ := (C53_finite junk).2.2 q (hal q hq).1 (hal q hq).2
      have := hpole a z0 z ha hz0 ⟨q, hq, hz⟩
      refine ⟨ndtr (z0 + (z0 + z) / (1 - a * (z0 + z))), ?_⟩
      unfold bcaLevel
      simp only [normal_ndtri hz, Option.bind_eq_bind, Option.bind_some, this, if_false]
      rfl
    clear hal hpole
    induction alphas with
    | nil => exact ⟨[], rfl⟩
    | cons q l ih =>
      obtain ⟨v, hv⟩ := hq q List.mem_cons_self
      obtain ⟨vs, hvs⟩ := ih (fun q h => hq q (List.mem_cons_of_mem _ h))
      exact ⟨v :: vs, by rw [List.mapM_cons, hv, hvs]; rfl⟩
  obtain ⟨av, hav⟩ := hm
  have hlev : Levels av := by
    clear hpole hal
    induction alphas generalizing av with
    | nil =>
      have : av = [] := by simpa using hav.symm
      subst this
      intro q hq
      simp at hq
    | cons q l ih =>
      rw [List.mapM_cons] at hav
      simp only [Option.bind_eq_bind, Option.bind_eq_some_iff, Option.pure_def,
        Option.some.injEq] at hav
      obtain ⟨v, hv, vs, hvs, rfl⟩ := hav
      intro x hx
      rcases List.mem_cons.1 hx with rfl | hx
      · unfold bcaLevel at hv
        simp only [Option.bind_eq_bind, Option.bind_eq_some_iff] at hv
        obtain ⟨z, -, hv⟩ := hv
        split_ifs at hv
        rw [← Option.some.inj hv]
        exact normal_01 junk _
      · exact ih vs hvs x hx
  refine ⟨av.map (quantile1 boot), ?_⟩
  simp only [bootCI, hb, reduceCtorEq, and_false, if_false, if_true, ha, hz, hav,
    npQuantile_ok hne hlev]
  rfl

/-- **C53.** Ends of a `bca` interval are in the order of their levels, as long as neither adjusted
level has passed the pole. -/
theorem C53_bca_ordered (junk : EReal) {boot : List ℝ} (hne : boot ≠ []) {th : ℝ} {tj : List ℝ}
    {p q x y : ℝ} (h0 : 0 ≤ p) (hpq : p ≤ q) (h1 : q ≤ 1) {method : String}
    (hb : method.toLower = "bca")
    (h : bootCI (normal junk) boot (some th) (some tj) [p, q] method = .ok (some [x, y]))
    (hpole : ∀ a z0 z : ℝ, computeA (normal junk) tj = some a →
      ndtri junk (percentileOfScore boot th) = z0 → (ndtri junk p = z ∨ ndtri junk q = z) →
      0 < 1 - a * (z0 + z)) : x ≤ y := by
  obtain ⟨a, z0, ha, hz0, hf, -⟩ := C45_bca _ (normal_01 junk) boot hne th tj _ method hb _ h
  obtain ⟨⟨z, hz, -, hx⟩, hf'⟩ := List.forall₂_cons.1 hf
  obtain ⟨⟨z', hz', -, hy⟩, -⟩ := List.forall₂_cons.1 hf'
  have hz := normal_some hz
  have hz' := normal_some hz'
  have hp1 := hpole a z0 z ha (normal_some hz0) (Or.inl hz)
  have hp2 := hpole a z0 z' ha (normal_some hz0) (Or.inr hz')
  have hzz : z ≤ z' := by
    rcases hpq.eq_or_lt with rfl | hpq
    · rw [hz] at hz'
      exact (EReal.coe_eq_coe_iff.1 hz').le
    · have := C53_increasing h0 hpq h1 junk
      rw [hz, hz', EReal.coe_lt_coe_iff] at this
      exact this.le
  refine hx.mono hy (C53_ndtr.1.monotone ?_)
  have : (z0 + z) / (1 - a * (z0 + z)) ≤ (z0 + z') / (1 - a * (z0 + z')) := by
    rw [div_le_div_iff₀ hp1 hp2]
    nlinarith
  linarith

/-- **C53.** The hypotheses of `C45_bca` and `C45_bca_affine` hold for these functions. -/
theorem C53_bca_hypotheses (junk : EReal) :
    (∀ x, 0 ≤ (normal junk).ndtr x ∧ (normal junk).ndtr x ≤ 1) ∧
    ∀ c : ℝ, 0 < c → ∀ x, (normal junk).pow32 (c ^ 2 * x) = c ^ 3 * (normal junk).pow32 x := by
  refine ⟨normal_01 junk, fun c hc x => ?_⟩
  simp only [normal]
  rcases le_or_gt 0 x with hx | hx
  swap
  · have hcos : cos (1.5 * π) = 0 := by
      rw [show 1.5 * π = π / 2 + π by ring, Real.cos_add_pi, Real.cos_pi_div_two, neg_zero]
    rw [Real.rpow_def_of_neg hx, Real.rpow_def_of_neg (mul_neg_of_pos_of_neg (by positivity) hx),
      hcos]
    simp
  rw [Real.mul_rpow (by positivity) hx, ← Real.rpow_natCast, ← Real.rpow_mul hc.le]
  norm_num

/-! ### Examples -/

private theorem ex_a {junk : EReal} {a : ℝ} (h : computeA (normal junk) [1, 2, 3] = some a) :
    a = 0 := by
  unfold computeA at h
  simp only [] at h
  split_ifs at h
  rw [← Option.some.inj h]
  norm_num

private theorem ex_score : percentileOfScore ([1, 2, 3] : List ℝ) 2 = 1 / 2 := by
  norm_num [percentileOfScore, List.filter]

private theorem ex_bca : "BCa".toLower = "bca" := by decide +kernel

example (junk : EReal) : ∃ x y, bootCI (normal junk) [1, 2, 3] (some 2) (some [1, 2, 3])
    [0.025, 0.975] "BCa" = .ok (some [x, y]) ∧ x ≤ y := by
  obtain ⟨ci, h⟩ := C53_bca_defined junk (boot := [1, 2, 3]) (by simp) (th := 2)
    (by rw [ex_score]; norm_num) (by rw [ex_score]; norm_num) (tj := [1, 2, 3])
    ⟨1, by simp, 2, by simp, by norm_num⟩ (alphas := [0.025, 0.975])
    (by intro q hq; simp at hq; rcases hq with rfl | rfl <;> norm_num) ex_bca
    (by intro a z0 z ha _ _; rw [ex_a ha]; norm_num)
  have hl : ci.length = 2 := by
    obtain ⟨_, _, _, _, hf, _⟩ := C45_bca _ (normal_01 junk) _ (by simp) _ _ _ _ ex_bca _ h
    exact hf.length_eq.symm
  match ci, hl with
  | [x, y], _ =>
    exact ⟨x, y, h, C53_bca_ordered junk (by simp) (by norm_num) (by norm_num) (by norm_num) ex_bca h
      (by intro a z0 z ha _ _; rw [ex_a ha]; norm_num)⟩

example : ndtri 0 0.975 = -ndtri 0 0.025 := by
  have := C53_symmetric (p := 0.025) (by norm_num) (by norm_num) 0
  rw [← this]
  norm_num

example : ndtri 0 0.02424 < ndtri 0 0.02425 :=
  C53_increasing (by norm_num) (by norm_num) (by norm_num) 0

example : ndtri 7 (-0.1) = 7 := C53_outside (by norm_num) 7

end Cmomy
