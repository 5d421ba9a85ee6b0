import Verif.Lemmas.Affine
import Verif.Props.Accumulate

/-!
# C10, C11: equivariance and signs
-/

namespace Cmomy

open Spec

section field

variable {K : Type*} [Field K] [DecidableEq K] [CharZero K]

/-- **C10.** Replacing every value `x` by `a * x + b` keeps the weight, maps the mean to
`a * mean + b` and multiplies the central moment of order `n` by `a ^ n`. -/
theorem C10_affine {order : ℕ} (ho : 1 ≤ order) (a b : K) (L : List (Sample K))
    (hL : Admissible L) (hW : weight L ≠ 0) :
    ∃ out out', (kernel1 order).reduceValsFromZero (toVals L) = some out ∧
      (kernel1 order).reduceValsFromZero
        ((toVals L).map (fun p => (a * p.1 + b, p.2))) = some out' ∧
      out' 0 = out 0 ∧ out' 1 = a * out 1 + b ∧
      ∀ n, 2 ≤ n → n ≤ order → out' n = a ^ n * out n := by
  obtain ⟨out, e, hm⟩ := C01_reduce_vals_exact ho L hL hW
  obtain ⟨out', e', hm'⟩ := C01_reduce_vals_exact ho (affine a b L) (admissible_affine a b hL)
    (by rw [weight_affine]; exact hW)
  refine ⟨out, out', e, ?_, ?_, ?_, fun n h2 hn => ?_⟩
  · rw [← e']; simp [toVals, affine, Function.comp_def]
  · rw [hm'.weight, hm.weight, weight_affine]
  · rw [hm'.mean, hm.mean, mean_affine a b L hW]
  · rw [hm'.central n h2 hn, hm.central n h2 hn, central_affine a b L hW]

/-- **C10.** Multiplying all weights by a non-zero constant multiplies only the weight entry. -/
theorem C10_weight_scale {order : ℕ} (ho : 1 ≤ order) (c : K) (hc : c ≠ 0) (L : List (Sample K))
    (hL : Admissible L) (hW : weight L ≠ 0) :
    ∃ out out', (kernel1 order).reduceValsFromZero (toVals L) = some out ∧
      (kernel1 order).reduceValsFromZero
        ((toVals L).map (fun p => (p.1, c * p.2))) = some out' ∧
      out' 0 = c * out 0 ∧ ∀ n, 1 ≤ n → n ≤ order → out' n = out n := by
  obtain ⟨out, e, hm⟩ := C01_reduce_vals_exact ho L hL hW
  obtain ⟨out', e', hm'⟩ := C01_reduce_vals_exact ho (reweight c L) (admissible_reweight c hc hL)
    (by rw [weight_reweight]; exact mul_ne_zero hc hW)
  refine ⟨out, out', e, ?_, ?_, fun n h1 hn => ?_⟩
  · rw [← e']; simp [toVals, reweight, Function.comp_def]
  · rw [hm'.weight, hm.weight, weight_reweight]
  · by_cases h : n = 1
    · rw [h, hm'.mean, hm.mean, mean_reweight c hc]
    · rw [hm'.central n (by omega) hn, hm.central n (by omega) hn, central_reweight c hc]

/-- **C10**, comoments: independent affine maps of the two variables. -/
theorem C10_affine_cov {o0 o1 : ℕ} (h0 : 1 ≤ o0) (h1 : 1 ≤ o1) (a b c d : K)
    (L : List (Sample2 K)) (hL : Admissible2 L) (hW : weight2 L ≠ 0) :
    ∃ out out', (kernel2 o0 o1).reduceValsFromZero (toVals2 L) = some out ∧
      (kernel2 o0 o1).reduceValsFromZero
        ((toVals2 L).map (fun p => ((a * p.1.1 + b, c * p.1.2 + d), p.2))) = some out' ∧
      out' 0 0 = out 0 0 ∧ out' 1 0 = a * out 1 0 + b ∧ out' 0 1 = c * out 0 1 + d ∧
      ∀ i j, i ≤ o0 → j ≤ o1 → 2 ≤ i + j → out' i j = a ^ i * c ^ j * out i j := by
  obtain ⟨out, e, hm⟩ := C02_reduce_vals_cov_exact h0 h1 L hL hW
  obtain ⟨out', e', hm'⟩ := C02_reduce_vals_cov_exact h0 h1 (affine2 a b c d L)
    (admissible2_affine2 a b c d hL) (by rw [weight2_affine2]; exact hW)
  refine ⟨out, out', e, ?_, ?_, ?_, ?_, fun i j hi hj hij => ?_⟩
  · rw [← e']; simp [toVals2, affine2, Function.comp_def]
  · rw [hm'.weight, hm.weight, weight2_affine2]
  · rw [hm'.meanX, hm.meanX, meanX_affine2 a b c d L hW]
  · rw [hm'.meanY, hm.meanY, meanY_affine2 a b c d L hW]
  · rw [hm'.central i j hi hj hij, hm.central i j hi hj hij, central2_affine2 a b c d L hW]

/-- **C10**, comoments: weights. -/
theorem C10_weight_scale_cov {o0 o1 : ℕ} (h0 : 1 ≤ o0) (h1 : 1 ≤ o1) (c : K) (hc : c ≠ 0)
    (L : List (Sample2 K)) (hL : Admissible2 L) (hW : weight2 L ≠ 0) :
    ∃ out out', (kernel2 o0 o1).reduceValsFromZero (toVals2 L) = some out ∧
      (kernel2 o0 o1).reduceValsFromZero
        ((toVals2 L).map (fun p => (p.1, c * p.2))) = some out' ∧
      out' 0 0 = c * out 0 0 ∧
      ∀ i j, i ≤ o0 → j ≤ o1 → 1 ≤ i + j → out' i j = out i j := by
  obtain ⟨out, e, hm⟩ := C02_reduce_vals_cov_exact h0 h1 L hL hW
  obtain ⟨out', e', hm'⟩ := C02_reduce_vals_cov_exact h0 h1 (reweight2 c L)
    (admissible2_reweight2 c hc hL) (by rw [weight2_reweight2]; exact mul_ne_zero hc hW)
  refine ⟨out, out', e, ?_, ?_, fun i j hi hj hij => ?_⟩
  · rw [← e']; simp [toVals2, reweight2, Function.comp_def]
  · rw [hm'.weight, hm.weight, weight2_reweight2]
  · by_cases c1 : i = 1 ∧ j = 0
    · rw [c1.1, c1.2, hm'.meanX, hm.meanX, meanX_reweight2 c hc]
    by_cases c2 : i = 0 ∧ j = 1
    · rw [c2.1, c2.2, hm'.meanY, hm.meanY, meanY_reweight2 c hc]
    rw [hm'.central i j hi hj (by omega), hm.central i j hi hj (by omega),
      central2_reweight2 c hc]

end field

section ordered

variable {K : Type*} [Field K] [LinearOrder K] [IsStrictOrderedRing K]

/-- **C11.** Even central moments, in particular the variance, are non-negative. -/
theorem C11_even_moments_nonneg {order : ℕ} (ho : 1 ≤ order) (L : List (Sample K))
    (hL : ∀ s ∈ L, 0 ≤ s.w) (hW : 0 < weight L) :
    ∃ out, (kernel1 order).reduceValsFromZero (toVals L) = some out ∧
      ∀ n, 2 ≤ n → n ≤ order → Even n → 0 ≤ out n := by
  obtain ⟨out, e, hm⟩ := C01_reduce_vals_exact_nonneg ho L hL hW
  refine ⟨out, e, fun n h2 hn hev => ?_⟩
  rw [hm.central n h2 hn, Spec.central]
  exact div_nonneg (wsum_nonneg hL fun x => hev.pow_nonneg _) hW.le

/-- **C11.** The variance vanishes exactly when all samples of positive weight have one value. -/
theorem C11_variance_zero_iff {order : ℕ} (ho : 2 ≤ order) (L : List (Sample K))
    (hL : ∀ s ∈ L, 0 ≤ s.w) (hW : 0 < weight L) :
    ∃ out, (kernel1 order).reduceValsFromZero (toVals L) = some out ∧
      (out 2 = 0 ↔ ∃ c, ∀ s ∈ L, 0 < s.w → s.x = c) := by
  obtain ⟨out, e, hm⟩ := C01_reduce_vals_exact_nonneg (by omega : 1 ≤ order) L hL hW
  refine ⟨out, e, ?_⟩
  rw [hm.central 2 le_rfl ho, Spec.central, div_eq_zero_iff, or_iff_left hW.ne',
    wsum_eq_zero_iff hL (fun x => sq_nonneg _)]
  constructor
  · intro h
    refine ⟨mean L, fun s hs hpos => ?_⟩
    rcases h s hs with h | h
    · exact absurd h hpos.ne'
    · exact sub_eq_zero.1 (pow_eq_zero_iff (two_ne_zero)|>.1 h)
  · rintro ⟨c, hc⟩ s hs
    by_cases hz : s.w = 0
    · exact Or.inl hz
    right
    have hpos : 0 < s.w := lt_of_le_of_ne (hL s hs) (Ne.symm hz)
    have hmean : mean L = c := by
      have : wsum L (fun x => x) = c * weight L := by
        unfold wsum Spec.weight
        rw [← List.sum_map_mul_left]
        congr 1
        refine List.map_congr_left fun t ht => ?_
        by_cases htz : t.w = 0
        · simp [htz]
        · rw [hc t ht (lt_of_le_of_ne (hL t ht) (Ne.symm htz)), mul_comm]
      rw [Spec.mean, this, mul_div_assoc, div_self hW.ne', mul_one]
    rw [hmean, hc s hs hpos, sub_self, zero_pow (by norm_num)]

/-- **C11.** Cauchy–Schwarz for the reported comoments: `cov² ≤ xvar * yvar`. -/
theorem C11_cov_sq_le {o0 o1 : ℕ} (h0 : 2 ≤ o0) (h1 : 2 ≤ o1) (L : List (Sample2 K))
    (hL : ∀ s ∈ L, 0 ≤ s.w) (hW : 0 < weight2 L) :
    ∃ out, (kernel2 o0 o1).reduceValsFromZero (toVals2 L) = some out ∧
      out 1 1 ^ 2 ≤ out 2 0 * out 0 2 := by
  obtain ⟨out, e, hm⟩ := C02_reduce_vals_cov_exact_nonneg (by omega : 1 ≤ o0) (by omega : 1 ≤ o1)
    L hL hW
  refine ⟨out, e, ?_⟩
  rw [hm.central 1 1 (by omega) (by omega) (by omega),
    hm.central 2 0 (by omega) (by omega) (by omega),
    hm.central 0 2 (by omega) (by omega) (by omega), central2, central2, central2, div_pow,
    div_mul_div_comm, ← sq]
  gcongr
  simpa using wsum2_cauchy hL (fun x _ => x - meanX L) (fun _ y => y - meanY L)

/-- **C11**, comoments: entries with both indices even are non-negative. -/
theorem C11_even_comoments_nonneg {o0 o1 : ℕ} (h0 : 1 ≤ o0) (h1 : 1 ≤ o1) (L : List (Sample2 K))
    (hL : ∀ s ∈ L, 0 ≤ s.w) (hW : 0 < weight2 L) :
    ∃ out, (kernel2 o0 o1).reduceValsFromZero (toVals2 L) = some out ∧
      ∀ i j, i ≤ o0 → j ≤ o1 → 2 ≤ i + j → Even i → Even j → 0 ≤ out i j := by
  obtain ⟨out, e, hm⟩ := C02_reduce_vals_cov_exact_nonneg h0 h1 L hL hW
  refine ⟨out, e, fun i j hi hj hij ei ej => ?_⟩
  rw [hm.central i j hi hj hij, central2]
  exact div_nonneg (wsum2_nonneg hL fun x y => mul_nonneg (ei.pow_nonneg _) (ej.pow_nonneg _))
    hW.le

end ordered

/-! ### Non-trivial instances -/

example : Admissible exL ∧ weight exL ≠ 0 :=
  ⟨admissible_of_nonneg (by decide +kernel), by decide +kernel⟩

/-- A stream with zero variance although it lists two different values (one has weight 0), and
one with positive variance: both sides of `C11_variance_zero_iff` occur. -/
example : (∃ c, ∀ s ∈ ([⟨1, 5⟩, ⟨0, 9⟩, ⟨2, 5⟩] : List (Sample ℚ)), 0 < s.w → s.x = c) ∧
    ¬ (∃ c, ∀ s ∈ exL, 0 < s.w → s.x = c) := by
  refine ⟨⟨5, by decide +kernel⟩, ?_⟩
  rintro ⟨c, hc⟩
  have a := hc ⟨1, 2⟩ (by simp [exL]) (by norm_num)
  have b := hc ⟨3, 4⟩ (by simp [exL]) (by norm_num)
  simp only at a b
  rw [← a] at b
  norm_num at b

/-- With a negative weight the reported variance can be negative: the hypothesis is needed. -/
example : ((kernel1 2).reduceValsFromZero
    (toVals ([⟨2, 0⟩, ⟨-1, 1⟩] : List (Sample ℚ)))).map (fun m => m 2) = some (-2) := by
  decide +kernel

end Cmomy
