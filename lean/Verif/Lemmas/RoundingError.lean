import Verif.Lemmas.RoundingLoops
import Verif.Spec.RoundingError
import Mathlib.Algebra.BigOperators.Ring.List
import Mathlib.Tactic.FieldSimp
import Mathlib.Tactic.LinearCombination

/-!
# Lemmas on the errors of averages and variances
-/

namespace Cmomy

open Spec

variable {K : Type*} [Field K] [LinearOrder K] [IsStrictOrderedRing K]

/-! ### Factors close to one -/

/-- `r` and its inverse are not less than `1 - s`. -/
structure Fac (s r : K) : Prop where
  low : 1 - s ≤ r
  up : (1 - s) * r ≤ 1

namespace Fac

variable {s t r q : K}

theorem pos (h : Fac s r) (hs : s < 1) : 0 < r := lt_of_lt_of_le (by linarith) h.low

theorem one (hs : 0 ≤ s) : Fac s (1 : K) := ⟨by linarith, by linarith⟩

theorem mono (h : Fac s r) (hst : s ≤ t) (hs : s < 1) : Fac t r :=
  ⟨by linarith [h.low], le_trans (mul_le_mul_of_nonneg_right (by linarith) (h.pos hs).le) h.up⟩

theorem mul (h : Fac s r) (h' : Fac t q) (hs0 : 0 ≤ s) (ht0 : 0 ≤ t) (hs : s < 1) (ht : t < 1) :
    Fac (s + t) (r * q) := by
  have hr := h.pos hs
  have hq := h'.pos ht
  have hst := mul_nonneg hs0 ht0
  constructor
  · have := mul_le_mul h.low h'.low (by linarith) hr.le
    nlinarith
  · have h1 : (1 - s) * r * ((1 - t) * q) ≤ 1 :=
      mul_le_one₀ h.up (mul_nonneg (by linarith) hq.le) h'.up
    have h2 : (1 - (s + t)) * (r * q) ≤ (1 - s) * (1 - t) * (r * q) :=
      mul_le_mul_of_nonneg_right (by nlinarith) (mul_pos hr hq).le
    calc _ ≤ _ := h2
      _ = (1 - s) * r * ((1 - t) * q) := by ring
      _ ≤ 1 := h1

theorem inv (h : Fac s r) (hs : s < 1) : Fac s r⁻¹ := by
  have hr := h.pos hs
  constructor
  · rw [← mul_le_mul_iff_left₀ hr, inv_mul_cancel₀ hr.ne']
    exact h.up
  · rw [← div_eq_mul_inv, div_le_one hr]
    exact h.low

theorem err (h : Fac s r) (hs : s ≤ 1 / 2) : |r - 1| ≤ 2 * s := by
  have hr := h.pos (by linarith)
  have h1 := h.up
  have h2 := h.low
  have hr2 : r ≤ 2 := by nlinarith
  have hs0 : 0 ≤ s := by nlinarith
  rw [abs_le]
  constructor
  · linarith
  · nlinarith

theorem le_two (h : Fac s r) (hs : s ≤ 1 / 2) : r ≤ 2 := by
  have hr := h.pos (by linarith)
  have h1 := h.up
  nlinarith

/-- Sums of terms that are not negative. -/
theorem add {a b : K} (h : Fac s r) (h' : Fac s q) (hs : 0 ≤ s) (hs1 : s < 1) (ha : 0 ≤ a) (hb : 0 ≤ b) :
    ∃ p, Fac s p ∧ a * r + b * q = (a + b) * p := by
  rcases eq_or_lt_of_le (add_nonneg ha hb) with hz | hz
  · refine ⟨1, one hs, ?_⟩
    have h1 : a = 0 := by linarith
    have h2 : b = 0 := by linarith
    rw [h1, h2]
    ring
  · refine ⟨(a * r + b * q) / (a + b), ⟨?_, ?_⟩, ?_⟩
    · rw [le_div_iff₀ hz]
      nlinarith [mul_le_mul_of_nonneg_left h.low ha, mul_le_mul_of_nonneg_left h'.low hb]
    · rw [← mul_div_assoc, div_le_one hz]
      nlinarith [mul_le_mul_of_nonneg_left h.up ha, mul_le_mul_of_nonneg_left h'.up hb]
    · rw [mul_div_cancel₀ _ hz.ne']

end Fac

/-- One rounding is a factor. -/
theorem round_fac {fl : K → K} {u : K} (hu : u < 1) (hfl : ∀ y, |fl y - y| ≤ u * |y|) (y : K) :
    ∃ r, Fac u r ∧ fl y = y * r := by
  have hu0 : 0 ≤ u := by
    have := hfl 1
    rw [abs_one, mul_one] at this
    exact (abs_nonneg _).trans this
  by_cases hy : y = 0
  · refine ⟨1, Fac.one hu0, ?_⟩
    have := hfl y
    rw [hy] at this
    simp only [sub_zero, abs_zero, mul_zero] at this
    rw [hy, abs_eq_zero.1 (le_antisymm this (abs_nonneg _))]
    simp
  · have h1 : |fl y / y - 1| ≤ u := by
      have e : fl y / y - 1 = (fl y - y) / y := by field_simp
      rw [e, abs_div, div_le_iff₀ (abs_pos.2 hy)]
      exact hfl y
    have h2 := abs_le.1 h1
    refine ⟨fl y / y, ⟨by linarith, ?_⟩, by field_simp⟩
    nlinarith

/-! ### One step -/

/-- The error of the average after one more sample. -/
theorem mean_step {a x m μ B e s u ρ f : K} (ha0 : 0 ≤ a) (ha1 : a ≤ 1) (hx : |x| ≤ B) (hμ : |μ| ≤ B)
    (he : |m - μ| ≤ e) (heB : e ≤ B) (hs0 : 0 ≤ s) (hs : s ≤ 1 / 2) (hρ : |ρ - 1| ≤ 2 * s) (hf : |f - 1| ≤ 2 * u) :
    |(m + (x - m) * a * ρ) * f - (μ + (x - μ) * a)| ≤ (1 - a) * e + a * (6 * s * B) + 10 * u * B := by
  have hB : 0 ≤ B := (abs_nonneg _).trans hx
  have hm : |m| ≤ 2 * B := by
    calc |m| = |(m - μ) + μ| := by ring_nf
      _ ≤ |m - μ| + |μ| := abs_add_le _ _
      _ ≤ 2 * B := by linarith
  have hxm : |x - m| ≤ 3 * B := by
    calc |x - m| ≤ |x| + |m| := abs_sub _ _
      _ ≤ 3 * B := by linarith
  have h1 : |a * (ρ - 1) * (x - m)| ≤ a * (6 * s * B) := by
    rw [abs_mul, abs_mul, abs_of_nonneg ha0, mul_assoc]
    refine mul_le_mul_of_nonneg_left ?_ ha0
    calc |ρ - 1| * |x - m| ≤ 2 * s * (3 * B) := mul_le_mul hρ hxm (abs_nonneg _) (by linarith)
      _ = 6 * s * B := by ring
  have h2 : |(1 - a) * m + a * x| ≤ 2 * B := by
    calc |(1 - a) * m + a * x| ≤ |(1 - a) * m| + |a * x| := abs_add_le _ _
      _ = (1 - a) * |m| + a * |x| := by rw [abs_mul, abs_mul, abs_of_nonneg ha0, abs_of_nonneg (by linarith : 0 ≤ 1 - a)]
      _ ≤ (1 - a) * (2 * B) + a * (2 * B) := by
          have := mul_le_mul_of_nonneg_left hm (show 0 ≤ 1 - a by linarith)
          have := mul_le_mul_of_nonneg_left (show |x| ≤ 2 * B by linarith) ha0
          linarith
      _ = 2 * B := by ring
  have h3 : |m + (x - m) * a * ρ| ≤ 5 * B := by
    have e1 : m + (x - m) * a * ρ = ((1 - a) * m + a * x) + a * (ρ - 1) * (x - m) := by ring
    rw [e1]
    have h4 : a * (6 * s * B) ≤ 3 * B := by
      have : a * s ≤ 1 / 2 := by nlinarith
      nlinarith
    linarith [abs_add_le ((1 - a) * m + a * x) (a * (ρ - 1) * (x - m))]
  have h5 : |(f - 1) * (m + (x - m) * a * ρ)| ≤ 10 * u * B := by
    rw [abs_mul]
    have hu : 0 ≤ 2 * u := (abs_nonneg _).trans hf
    calc _ ≤ 2 * u * (5 * B) := mul_le_mul hf h3 (abs_nonneg _) hu
      _ = 10 * u * B := by ring
  have h6 : |(1 - a) * (m - μ)| ≤ (1 - a) * e := by
    rw [abs_mul, abs_of_nonneg (by linarith : 0 ≤ 1 - a)]
    exact mul_le_mul_of_nonneg_left he (by linarith)
  have e2 : (m + (x - m) * a * ρ) * f - (μ + (x - μ) * a)
      = (1 - a) * (m - μ) + a * (ρ - 1) * (x - m) + (f - 1) * (m + (x - m) * a * ρ) := by ring
  rw [e2]
  linarith [abs_add_le ((1 - a) * (m - μ) + a * (ρ - 1) * (x - m)) ((f - 1) * (m + (x - m) * a * ρ)),
    abs_add_le ((1 - a) * (m - μ)) (a * (ρ - 1) * (x - m))]

/-- The error of the variance after one more sample. -/
theorem var_step {a x m μ B T u d v V ev r g1 g2 g3 : K} (ha0 : 0 ≤ a) (ha1 : a ≤ 1) (hx : |x| ≤ B) (hμ : |μ| ≤ B)
    (hT0 : 0 ≤ T) (hT : 16 * T ≤ 1) (he : |m - μ| ≤ 16 * T * B) (hd0 : 0 ≤ d) (hd : d ≤ B ^ 2) (hV0 : 0 ≤ V)
    (hV : V ≤ 3 * B ^ 2) (hev : |V - v| ≤ ev) (hr : |r - 1| ≤ 2 * T) (har : a * r ≤ 1) (har0 : 0 ≤ a * r)
    (hg1 : |g1 - 1| ≤ 4 * T) (hg2 : |g2 - 1| ≤ 10 * u) (hg3 : |g3 - 1| ≤ 4 * T) (hg0 : 0 ≤ g3) (hg : g3 ≤ 2) :
    |d * a * g1 + (1 - a * r) * g2 * (V + (x - m) ^ 2 * a * g3) - (d * a + (1 - a) * (v + (x - μ) ^ 2 * a))|
      ≤ (1 - a) * ev + a * (162 * T * B ^ 2) + 210 * u * B ^ 2 := by
  have hB : 0 ≤ B := (abs_nonneg _).trans hx
  have hB2 : 0 ≤ B ^ 2 := sq_nonneg B
  have hTB : 16 * T * B ≤ B := by nlinarith
  have hm : |m| ≤ 2 * B := by
    calc |m| = |(m - μ) + μ| := by ring_nf
      _ ≤ |m - μ| + |μ| := abs_add_le _ _
      _ ≤ 2 * B := by linarith
  have hxm : |x - m| ≤ 3 * B := by
    calc |x - m| ≤ |x| + |m| := abs_sub _ _
      _ ≤ 3 * B := by linarith
  have hxμ : |x - μ| ≤ 2 * B := by
    calc |x - μ| ≤ |x| + |μ| := abs_sub _ _
      _ ≤ 2 * B := by linarith
  have hsq : (x - m) ^ 2 ≤ 9 * B ^ 2 := by
    rw [← sq_abs]
    nlinarith [abs_nonneg (x - m)]
  have hsq0 : 0 ≤ (x - m) ^ 2 := sq_nonneg _
  have hq : (x - m) ^ 2 * a * g3 ≤ 18 * B ^ 2 := by
    have h1 : a * g3 ≤ 2 := by nlinarith
    have h0 : 0 ≤ a * g3 := mul_nonneg ha0 hg0
    calc (x - m) ^ 2 * a * g3 = (x - m) ^ 2 * (a * g3) := by ring
      _ ≤ 9 * B ^ 2 * 2 := mul_le_mul hsq h1 h0 (by linarith)
      _ = 18 * B ^ 2 := by ring
  have hP0 : 0 ≤ V + (x - m) ^ 2 * a * g3 := add_nonneg hV0 (mul_nonneg (mul_nonneg hsq0 ha0) hg0)
  have hP : V + (x - m) ^ 2 * a * g3 ≤ 21 * B ^ 2 := by linarith
  set P := V + (x - m) ^ 2 * a * g3 with hPdef
  have t1 : |d * a * (g1 - 1)| ≤ a * (4 * T * B ^ 2) := by
    rw [abs_mul, abs_of_nonneg (mul_nonneg hd0 ha0)]
    calc d * a * |g1 - 1| ≤ d * a * (4 * T) := mul_le_mul_of_nonneg_left hg1 (mul_nonneg hd0 ha0)
      _ = a * (4 * T) * d := by ring
      _ ≤ a * (4 * T) * B ^ 2 := mul_le_mul_of_nonneg_left hd (mul_nonneg ha0 (by linarith))
      _ = _ := by ring
  have t2 : |(g2 - 1) * ((1 - a * r) * P)| ≤ 210 * u * B ^ 2 := by
    rw [abs_mul]
    have h1 : |(1 - a * r) * P| ≤ 21 * B ^ 2 := by
      rw [abs_of_nonneg (mul_nonneg (by linarith) hP0)]
      calc (1 - a * r) * P ≤ 1 * P := mul_le_mul_of_nonneg_right (by linarith) hP0
        _ ≤ 21 * B ^ 2 := by linarith
    calc _ ≤ 10 * u * (21 * B ^ 2) := mul_le_mul hg2 h1 (abs_nonneg _) ((abs_nonneg _).trans hg2)
      _ = _ := by ring
  have t3 : |(1 - a) * (V - v)| ≤ (1 - a) * ev := by
    rw [abs_mul, abs_of_nonneg (by linarith : 0 ≤ 1 - a)]
    exact mul_le_mul_of_nonneg_left hev (by linarith)
  have t4 : |a * (r - 1) * P| ≤ a * (42 * T * B ^ 2) := by
    rw [abs_mul, abs_mul, abs_of_nonneg ha0, abs_of_nonneg hP0, mul_assoc]
    refine mul_le_mul_of_nonneg_left ?_ ha0
    calc |r - 1| * P ≤ 2 * T * (21 * B ^ 2) := mul_le_mul hr hP hP0 (by linarith)
      _ = _ := by ring
  have t5 : |(x - m) ^ 2 * (g3 - 1)| ≤ 36 * T * B ^ 2 := by
    rw [abs_mul, abs_of_nonneg hsq0]
    calc _ ≤ 9 * B ^ 2 * (4 * T) := mul_le_mul hsq hg3 (abs_nonneg _) (by linarith)
      _ = _ := by ring
  have t6 : |(x - m) ^ 2 - (x - μ) ^ 2| ≤ 80 * T * B ^ 2 := by
    have e1 : (x - m) ^ 2 - (x - μ) ^ 2 = -(m - μ) * ((x - m) + (x - μ)) := by ring
    rw [e1, abs_mul, abs_neg]
    have h1 : |(x - m) + (x - μ)| ≤ 5 * B := by linarith [abs_add_le (x - m) (x - μ)]
    calc _ ≤ 16 * T * B * (5 * B) := mul_le_mul he h1 (abs_nonneg _) ((abs_nonneg _).trans he)
      _ = _ := by ring
  have t7 : |(1 - a) * a * ((x - m) ^ 2 * (g3 - 1) + ((x - m) ^ 2 - (x - μ) ^ 2))| ≤ a * (116 * T * B ^ 2) := by
    rw [abs_mul, abs_of_nonneg (mul_nonneg (by linarith) ha0 : 0 ≤ (1 - a) * a)]
    have h1 := abs_add_le ((x - m) ^ 2 * (g3 - 1)) ((x - m) ^ 2 - (x - μ) ^ 2)
    have h2 : (1 - a) * a ≤ a := by nlinarith
    exact mul_le_mul h2 (by linarith) (abs_nonneg _) ha0
  have e : d * a * g1 + (1 - a * r) * g2 * P - (d * a + (1 - a) * (v + (x - μ) ^ 2 * a))
      = d * a * (g1 - 1) + (g2 - 1) * ((1 - a * r) * P) + (1 - a) * (V - v) - a * (r - 1) * P
        + (1 - a) * a * ((x - m) ^ 2 * (g3 - 1) + ((x - m) ^ 2 - (x - μ) ^ 2)) := by
    rw [hPdef]
    ring
  rw [e]
  have a1 := abs_add_le (d * a * (g1 - 1)) ((g2 - 1) * ((1 - a * r) * P))
  have a2 := abs_add_le (d * a * (g1 - 1) + (g2 - 1) * ((1 - a * r) * P)) ((1 - a) * (V - v))
  have a3 := abs_sub (d * a * (g1 - 1) + (g2 - 1) * ((1 - a * r) * P) + (1 - a) * (V - v)) (a * (r - 1) * P)
  have a4 := abs_add_le (d * a * (g1 - 1) + (g2 - 1) * ((1 - a * r) * P) + (1 - a) * (V - v) - a * (r - 1) * P)
    ((1 - a) * a * ((x - m) ^ 2 * (g3 - 1) + ((x - m) ^ 2 - (x - μ) ^ 2)))
  have e3 : a * (162 * T * B ^ 2) = a * (4 * T * B ^ 2) + a * (42 * T * B ^ 2) + a * (116 * T * B ^ 2) := by ring
  rw [e3]
  linarith

/-! ### Sums of a list of records -/

/-- The moments `m` are close to those of records with the sums `S0` of weights, `S1` of weighted averages and `S2` of
weighted squares, after `n` of `N` records. -/
structure Near (R : Precision K) (u B : K) (order N n : ℕ) (S0 S1 S2 : K) (m : Mom K) : Prop where
  sum0 : 0 ≤ S0
  sum1 : |S1| ≤ B * S0
  sum2 : 0 ≤ S2
  sum2' : S2 ≤ 2 * B ^ 2 * S0
  sound : Sound R m
  weight : ∃ r, Fac ((n + 1 : ℕ) * u) r ∧ m 0 = S0 * r
  mean : |m 1 - S1 / S0| ≤ 6 * ((N + 5) * u) * B + 10 * (n * u) * B
  var : order ≠ 1 → 400 * ((N + 5) * u) ≤ 1 →
    |m 2 - (S2 / S0 - (S1 / S0) ^ 2)| ≤ 162 * ((N + 5) * u) * B ^ 2 + 210 * (n * u) * B ^ 2

variable {R : Precision K} {u B : K} {order N n : ℕ} {S0 S1 S2 : K} {m : Mom K}

theorem Spec.Accurate.nonneg (h : Accurate R u) : 0 ≤ u := by
  have := h.lo 1
  rw [abs_one, mul_one] at this
  exact (abs_nonneg _).trans this

/-- A number of roundings. -/
theorem Fac.mulN {M k l : ℕ} {u r q : K} (h : Fac (k * u) r) (h' : Fac (l * u) q) (hu : 0 ≤ u) (hM : (M : K) * u < 1)
    (hkl : k + l ≤ M) : Fac ((k + l : ℕ) * u) (r * q) := by
  have h1 : (k : K) * u ≤ M * u := mul_le_mul_of_nonneg_right (by exact_mod_cast (by omega : k ≤ M)) hu
  have h2 : (l : K) * u ≤ M * u := mul_le_mul_of_nonneg_right (by exact_mod_cast (by omega : l ≤ M)) hu
  have := h.mul h' (mul_nonneg (Nat.cast_nonneg k) hu) (mul_nonneg (Nat.cast_nonneg l) hu) (h1.trans_lt hM)
    (h2.trans_lt hM)
  rwa [Nat.cast_add, add_mul]

theorem Fac.monoN {M k l : ℕ} {u r : K} (h : Fac (k * u) r) (hu : 0 ≤ u) (hM : (M : K) * u < 1) (hkl : k ≤ l)
    (hl : k ≤ M) : Fac (l * u) r :=
  h.mono (mul_le_mul_of_nonneg_right (by exact_mod_cast hkl) hu)
    (lt_of_le_of_lt (mul_le_mul_of_nonneg_right (by exact_mod_cast hl) hu) hM)

theorem Fac.invN {M k : ℕ} {u r : K} (h : Fac (k * u) r) (hu : 0 ≤ u) (hM : (M : K) * u < 1) (hl : k ≤ M) :
    Fac (k * u) r⁻¹ :=
  h.inv (lt_of_le_of_lt (mul_le_mul_of_nonneg_right (by exact_mod_cast hl) hu) hM)

theorem Fac.posN {M k : ℕ} {u r : K} (h : Fac (k * u) r) (hu : 0 ≤ u) (hM : (M : K) * u < 1) (hl : k ≤ M) : 0 < r :=
  h.pos (lt_of_le_of_lt (mul_le_mul_of_nonneg_right (by exact_mod_cast hl) hu) hM)

theorem Near.mono (h : Near R u B order N n S0 S1 S2 m) (hu : 0 ≤ u) (hB : 0 ≤ B) (hN : n + 1 ≤ N)
    (hsm : 16 * ((N + 5) * u) ≤ 1) : Near R u B order N (n + 1) S0 S1 S2 m := by
  have c1 : ((n + 1 : ℕ) : K) * u ≤ (N + 5) * u :=
    mul_le_mul_of_nonneg_right (by exact_mod_cast (by omega : n + 1 ≤ N + 5)) hu
  have c2 : ((n + 1 : ℕ) : K) * u < 1 := by
    have := c1.trans (by linarith [mul_nonneg (Nat.cast_nonneg (α := K) N) hu] : ((N : K) + 5) * u ≤ 1 / 16)
    linarith
  have c3 : (n : K) * u ≤ ((n + 1 : ℕ) : K) * u := mul_le_mul_of_nonneg_right (by exact_mod_cast n.le_succ) hu
  obtain ⟨r, hr, e⟩ := h.weight
  refine ⟨h.sum0, h.sum1, h.sum2, h.sum2', h.sound, ⟨r, hr.monoN hu c2 (by omega) le_rfl, e⟩, h.mean.trans ?_,
    fun h1 h2 => (h.var h1 h2).trans ?_⟩
  · have := mul_le_mul_of_nonneg_right c3 hB
    linarith
  · have := mul_le_mul_of_nonneg_right c3 (sq_nonneg B)
    linarith

/-- A push in terms of factors. -/
theorem push_factors (h : Accurate R u) (hM : ((n + 8 : ℕ) : K) * u < 1) {w rw_ w' r0 o0 o1 o2 x d : K} (hS0 : 0 ≤ S0)
    (hw : 0 < w) (hrw : Fac ((1 : ℕ) * u) rw_) (ew : w' = w * rw_) (hr0 : Fac ((n + 1 : ℕ) * u) r0)
    (em0 : o0 = S0 * r0) :
    ∃ rW ra ρ f g1 g2 g3, Fac ((n + 2 : ℕ) * u) rW ∧ Fac ((n + 4 : ℕ) * u) ra ∧ Fac ((n + 6 : ℕ) * u) ρ ∧
      Fac ((1 : ℕ) * u) f ∧ Fac ((n + 7 : ℕ) * u) g1 ∧ Fac ((5 : ℕ) * u) g2 ∧ Fac ((n + 8 : ℕ) * u) g3 ∧
      R.lo (o0 + w') = (S0 + w) * rW ∧ R.lo (w' / R.lo (o0 + w')) = w / (S0 + w) * ra ∧
      R.lo (o1 + R.lo (R.lo (x - o1) * R.lo (w' / R.lo (o0 + w')))) = (o1 + (x - o1) * (w / (S0 + w)) * ρ) * f ∧
      R.lo (R.hi (R.lo (d * R.lo (w' / R.lo (o0 + w')))
        + R.hi (R.hi (1 - R.lo (w' / R.lo (o0 + w')))
          * R.lo (o2 + R.lo (R.lo (x - o1) * R.lo (R.lo (x - o1) * R.lo (w' / R.lo (o0 + w'))))))))
      = d * (w / (S0 + w)) * g1 + (1 - w / (S0 + w) * ra) * g2 * (o2 + (x - o1) ^ 2 * (w / (S0 + w)) * g3) := by
  have hu := h.nonneg
  have hu1 : u < 1 := lt_of_le_of_lt (le_mul_of_one_le_left hu (by push_cast; linarith [Nat.cast_nonneg (α := K) n])) hM
  have one : ∀ {r : K}, Fac u r → Fac ((1 : ℕ) * u) r := fun h => by simpa using h
  have hS : 0 < S0 + w := by linarith
  obtain ⟨r1, hr1, er1⟩ := hr0.add (hrw.monoN hu hM (by omega) (by omega)) (mul_nonneg (Nat.cast_nonneg _) hu)
    (lt_of_le_of_lt (mul_le_mul_of_nonneg_right (by exact_mod_cast (by omega : n + 1 ≤ n + 8)) hu) hM) hS0 hw.le
  obtain ⟨f0, hf0, ef0⟩ := round_fac hu1 h.lo (o0 + w')
  have hR2 := hr1.mulN (one hf0) hu hM (by omega)
  have eW : R.lo (o0 + w') = (S0 + w) * (r1 * f0) := by rw [ef0, em0, ew, er1]; ring
  have hR2pos := hR2.posN hu hM (by omega)
  generalize r1 * f0 = rW at *
  obtain ⟨f1, hf1, ef1⟩ := round_fac hu1 h.lo (w' / R.lo (o0 + w'))
  have hra := ((hrw.mulN (hR2.invN hu hM (by omega)) hu hM (by omega)).mulN (one hf1) hu hM (by omega)).monoN
    (l := n + 4) hu hM (by omega) (by omega)
  have ea : R.lo (w' / R.lo (o0 + w')) = w / (S0 + w) * (rw_ * rW⁻¹ * f1) := by
    rw [ef1, eW, ew]
    field_simp
  generalize rw_ * rW⁻¹ * f1 = ra at *
  rw [ea]
  generalize w / (S0 + w) = a at *
  obtain ⟨f2, hf2, ef2⟩ := round_fac hu1 h.lo (x - o1)
  rw [ef2]
  obtain ⟨f3, hf3, ef3⟩ := round_fac hu1 h.lo ((x - o1) * f2 * (a * ra))
  rw [ef3]
  obtain ⟨f4, hf4, ef4⟩ := round_fac hu1 h.lo (o1 + (x - o1) * f2 * (a * ra) * f3)
  rw [ef4]
  obtain ⟨f5, hf5, ef5⟩ := round_fac hu1 h.lo (d * (a * ra))
  rw [ef5]
  obtain ⟨f8, hf8, ef8⟩ := round_fac hu1 h.lo ((x - o1) * f2 * ((x - o1) * f2 * (a * ra) * f3))
  rw [ef8]
  obtain ⟨f9, hf9, ef9⟩ := round_fac hu1 h.lo (o2 + (x - o1) * f2 * ((x - o1) * f2 * (a * ra) * f3) * f8)
  rw [ef9]
  obtain ⟨f10, hf10, ef10⟩ := round_fac hu1 h.hi (1 - a * ra)
  rw [ef10]
  obtain ⟨f11, hf11, ef11⟩ := round_fac hu1 h.hi
    ((1 - a * ra) * f10 * ((o2 + (x - o1) * f2 * ((x - o1) * f2 * (a * ra) * f3) * f8) * f9))
  rw [ef11]
  obtain ⟨f6, hf6, ef6⟩ := round_fac hu1 h.hi (d * (a * ra) * f5
    + (1 - a * ra) * f10 * ((o2 + (x - o1) * f2 * ((x - o1) * f2 * (a * ra) * f3) * f8) * f9) * f11)
  rw [ef6]
  obtain ⟨f7, hf7, ef7⟩ := round_fac hu1 h.lo ((d * (a * ra) * f5
    + (1 - a * ra) * f10 * ((o2 + (x - o1) * f2 * ((x - o1) * f2 * (a * ra) * f3) * f8) * f9) * f11) * f6)
  rw [ef7]
  have hρ := ((one hf2).mulN hra hu hM (by omega)).mulN (one hf3) hu hM (by omega)
  have hg1 := ((hra.mulN (one hf5) hu hM (by omega)).mulN (one hf6) hu hM (by omega)).mulN (one hf7) hu hM (by omega)
  have hg2 := ((((one hf9).mulN (one hf10) hu hM (by omega)).mulN (one hf11) hu hM (by omega)).mulN (one hf6) hu hM
    (by omega)).mulN (one hf7) hu hM (by omega)
  have hg3 := ((one hf2).mulN hρ hu hM (by omega)).mulN (one hf8) hu hM (by omega)
  exact ⟨rW, ra, f2 * ra * f3, f4, ra * f5 * f6 * f7, f9 * f10 * f11 * f6 * f7, f2 * (f2 * ra * f3) * f8, hR2, hra,
    hρ.monoN hu hM (by omega) (by omega), one hf4, hg1, hg2.monoN hu hM (by omega) (by omega),
    hg3.monoN hu hM (by omega) (by omega), eW, rfl, by ring, by ring⟩

/-- The exact sums after one more record. -/
theorem exact_step (hS0 : 0 ≤ S0) (hS1 : |S1| ≤ B * S0) (hS2 : 0 ≤ S2) (hS2' : S2 ≤ 2 * B ^ 2 * S0) (hB : 0 ≤ B)
    {w : K} (hw : 0 < w) (x d : K) :
    |S1 / S0| ≤ B ∧ S2 / S0 ≤ 2 * B ^ 2 ∧
    (S1 + w * x) / (S0 + w) = S1 / S0 + (x - S1 / S0) * (w / (S0 + w)) ∧
    (S2 + w * (d + x ^ 2)) / (S0 + w) - ((S1 + w * x) / (S0 + w)) ^ 2
      = d * (w / (S0 + w))
        + (1 - w / (S0 + w)) * (S2 / S0 - (S1 / S0) ^ 2 + (x - S1 / S0) ^ 2 * (w / (S0 + w))) := by
  have hS : 0 < S0 + w := by linarith
  have h1 : S0 * (S1 / S0) = S1 := by
    rcases eq_or_lt_of_le hS0 with hz | hz
    · rw [← hz, mul_zero] at hS1
      rw [← hz, zero_mul, abs_eq_zero.1 (le_antisymm hS1 (abs_nonneg _))]
    · rw [mul_div_cancel₀ _ hz.ne']
  have h2 : S0 * (S2 / S0) = S2 := by
    rcases eq_or_lt_of_le hS0 with hz | hz
    · rw [← hz, mul_zero] at hS2'
      rw [← hz, zero_mul, le_antisymm hS2' hS2]
    · rw [mul_div_cancel₀ _ hz.ne']
  have h3 : (S1 + w * x) / (S0 + w) = S1 / S0 + (x - S1 / S0) * (w / (S0 + w)) := by
    generalize S1 / S0 = μ at *
    rw [← h1]
    field_simp
    ring
  refine ⟨?_, ?_, h3, ?_⟩
  · rcases eq_or_lt_of_le hS0 with hz | hz
    · rw [← hz, div_zero, abs_zero]
      exact hB
    · rw [abs_div, abs_of_pos hz, div_le_iff₀ hz]
      exact hS1
  · rcases eq_or_lt_of_le hS0 with hz | hz
    · rw [← hz, div_zero]
      exact mul_nonneg zero_le_two (sq_nonneg B)
    · rw [div_le_iff₀ hz]
      exact hS2'
  · rw [h3]
    have h4 : (S2 + w * (d + x ^ 2)) / (S0 + w) = (1 - w / (S0 + w)) * (S2 / S0) + w / (S0 + w) * (d + x ^ 2) := by
      generalize S2 / S0 = q at *
      rw [← h2]
      field_simp
      ring
    rw [h4]
    ring

/-- One more record. -/
theorem Near.step (h : Accurate R u) (hN : n + 1 ≤ N) (hsm : 16 * ((N + 5) * u) ≤ 1)
    (hm : Near R u B order N n S0 S1 S2 m) {w x d w' : K} (hw : 0 ≤ w) (hx : |x| ≤ B) (hd0 : 0 ≤ d) (hd : d ≤ B ^ 2)
    (hw' : IsWeight R w') (hr : ∃ r, Fac u r ∧ w' = w * r) (hne : w' ≠ 0) {m' : Mom K} (hs : Sound R m')
    (e0 : m' 0 = R.lo (m 0 + w'))
    (e1 : m' 1 = R.lo (m 1 + R.lo (R.lo (x - m 1) * R.lo (w' / R.lo (m 0 + w')))))
    (e2 : order ≠ 1 → m' 2 = R.lo (R.hi (R.lo (d * R.lo (w' / R.lo (m 0 + w')))
      + R.hi (R.hi (1 - R.lo (w' / R.lo (m 0 + w')))
        * R.lo (m 2 + R.lo (R.lo (x - m 1) * R.lo (R.lo (x - m 1) * R.lo (w' / R.lo (m 0 + w'))))))))) :
    Near R u B order N (n + 1) (S0 + w) (S1 + w * x) (S2 + w * (d + x ^ 2)) m' := by
  have hu := h.nonneg
  have hB : 0 ≤ B := (abs_nonneg _).trans hx
  have hB2 : 0 ≤ B ^ 2 := sq_nonneg B
  have cast : ∀ k : ℕ, k ≤ N + 5 → (k : K) * u ≤ (N + 5) * u := fun k hk =>
    mul_le_mul_of_nonneg_right (by exact_mod_cast hk) hu
  have cast2 : ∀ k : ℕ, k ≤ 2 * (N + 5) → (k : K) * u ≤ 2 * ((N + 5) * u) := fun k hk => by
    rw [← mul_assoc]
    exact mul_le_mul_of_nonneg_right (by exact_mod_cast hk) hu
  have c1 : (n : K) * u ≤ (N + 5) * u := cast n (by omega)
  have c2 := cast (n + 6) (by omega)
  have c3 := cast (n + 4) (by omega)
  have c4 := cast2 (n + 7) (by omega)
  have c5 := cast2 (n + 8) (by omega)
  have c6 : ((5 : ℕ) : K) * u ≤ (N + 5) * u := cast 5 (by omega)
  have c7 : ((1 : ℕ) : K) * u ≤ (N + 5) * u := cast 1 (by omega)
  have c0 : (0 : K) ≤ n * u := mul_nonneg (Nat.cast_nonneg n) hu
  have hme := hm.mean
  have hve := hm.var
  have hV0 := hm.sound.var
  obtain ⟨r0, hr0, em0⟩ := hm.weight
  obtain ⟨rw_, hrw, ew⟩ := hr
  have hwpos : 0 < w := by
    rcases eq_or_lt_of_le hw with hz | hz
    · exact absurd (by rw [ew, ← hz, zero_mul]) hne
    · exact hz
  obtain ⟨-, -, -, -, q5, q6, -, -⟩ := h.precision.push_numbers hm.sound.weight hw' hne
  have hS : 0 < S0 + w := by linarith [hm.sum0]
  obtain ⟨rW, ra, ρ, f, g1, g2, g3, k1, k2, k3, k4, k5, k6, k7, j1, j2, j3, j4⟩ :=
    push_factors (o0 := m 0) (o1 := m 1) (o2 := m 2) (x := x) (d := d) h
      (lt_of_le_of_lt c5 (by linarith)) hm.sum0 hwpos (by simpa using hrw) ew hr0 em0
  obtain ⟨hμ, hq, eμ, ev⟩ := exact_step hm.sum0 hm.sum1 hm.sum2 hm.sum2' hB hwpos x d
  rw [j1] at e0
  rw [j3] at e1
  rw [j4] at e2
  rw [j2] at q5 q6
  clear j1 j2 j3 j4
  have ha0 : 0 ≤ w / (S0 + w) := div_nonneg hw hS.le
  have ha1 : w / (S0 + w) ≤ 1 := (div_le_one hS).2 (by linarith [hm.sum0])
  refine ⟨hS.le, ?_, ?_, ?_, hs, ⟨rW, k1, e0⟩, ?_, fun ho hsm' => ?_⟩
  · have h1 : |w * x| ≤ w * B := by
      rw [abs_mul, abs_of_nonneg hw]
      exact mul_le_mul_of_nonneg_left hx hw
    linarith [abs_add_le S1 (w * x), hm.sum1]
  · have := mul_nonneg hw (add_nonneg hd0 (sq_nonneg x))
    linarith [hm.sum2]
  · have hx2 : x ^ 2 ≤ B ^ 2 := by
      rw [← sq_abs x]
      exact pow_le_pow_left₀ (abs_nonneg _) hx 2
    have := mul_le_mul_of_nonneg_left (show d + x ^ 2 ≤ 2 * B ^ 2 by linarith) hw
    linarith [hm.sum2']
  all_goals
    have hve' := hve
    clear hve hm
    have eT : (((n + 1 : ℕ) : K)) * u = n * u + u := by push_cast; ring
    generalize w / (S0 + w) = a at *
    generalize ((N : K) + 5) * u = T at *
    have hT0 : 0 ≤ T := c0.trans c1
    have hE : 6 * T * B + 10 * (n * u) * B ≤ 16 * T * B := by
      have := mul_le_mul_of_nonneg_right c1 hB
      linarith
  · have hEB : 16 * T * B ≤ B := by
      have := mul_le_mul_of_nonneg_right hsm hB
      linarith
    rw [e1, eμ, eT]
    refine (mean_step (e := 6 * T * B + 10 * (n * u) * B) (s := T) (u := u) ha0 ha1 hx hμ hme (hE.trans hEB)
      hT0 (by linarith) ((k3.err (by linarith)).trans (by linarith))
      (by simpa using k4.err (c7.trans (by linarith)))).trans ?_
    have := mul_nonneg ha0 (mul_nonneg c0 hB)
    linarith
  · have hve := hve' ho hsm'
    have hTB2 : T * B ^ 2 ≤ 1 / 400 * B ^ 2 := mul_le_mul_of_nonneg_right (by linarith) hB2
    have hnTB2 : ((n : K) * u) * B ^ 2 ≤ T * B ^ 2 := mul_le_mul_of_nonneg_right c1 hB2
    have hV : m 2 ≤ 3 * B ^ 2 := by
      have := (abs_le.1 hve).2
      have h3 := sq_nonneg (S1 / S0)
      linarith
    rw [e2 ho, ev, eT]
    have h5 := k6.err (c6.trans (by linarith))
    have e5 : ((5 : ℕ) : K) = 5 := by norm_num
    rw [e5] at h5
    refine (var_step (T := T) (u := u) (ev := 162 * T * B ^ 2 + 210 * (n * u) * B ^ 2) ha0 ha1 hx hμ hT0 hsm
      (hme.trans hE) hd0 hd hV0 hV hve ((k2.err (by linarith)).trans (by linarith)) q6 q5
      ((k5.err (by linarith)).trans (by linarith)) (h5.trans (by linarith))
      ((k7.err (by linarith)).trans (by linarith)) (k7.pos (by linarith)).le (k7.le_two (by linarith))).trans ?_
    have := mul_nonneg ha0 (mul_nonneg c0 hB2)
    linarith

/-! ### Pushes -/

theorem Fac.ne_zero_of {u r w w' : K} (hr : Fac u r) (hu : u < 1) (e : w' = w * r) (hz : w' = 0) : w = 0 := by
  rw [hz] at e
  rcases mul_eq_zero.1 e.symm with h | h
  · exact h
  · exact absurd h (hr.pos hu).ne'

theorem Spec.Accurate.small (h : Accurate R u) (hsm : 16 * (((N : K) + 5) * u) ≤ 1) : u < 1 := by
  have := mul_nonneg (Nat.cast_nonneg (α := K) N) h.nonneg
  linarith [h.nonneg]

theorem Near.pushVal (h : Accurate R u) (hN : n + 1 ≤ N) (hsm : 16 * ((N + 5) * u) ≤ 1)
    (hm : Near R u B order N n S0 S1 S2 m) {w x w' : K} (hw : 0 ≤ w) (hx : |x| ≤ B) (hw' : IsWeight R w')
    (hr : ∃ r, Fac u r ∧ w' = w * r) :
    ∃ m', R.pushVal order x w' m = some m' ∧
      Near R u B order N (n + 1) (S0 + w) (S1 + w * x) (S2 + w * (0 + x ^ 2)) m' := by
  have hB : 0 ≤ B := (abs_nonneg _).trans hx
  by_cases hz : w' = 0
  · obtain ⟨r, hr, e⟩ := hr
    have hw0 := hr.ne_zero_of (h.small hsm) e hz
    refine ⟨m, by unfold Precision.pushVal; rw [if_pos hz], ?_⟩
    rw [hw0, zero_mul, zero_mul, add_zero, add_zero, add_zero]
    exact hm.mono h.nonneg hB hN hsm
  · obtain ⟨m', e, hs, -⟩ := Precision.pushVal_sound h.precision order x hw' hm.sound
    obtain ⟨-, -, -, h4, -⟩ := h.precision.push_numbers hm.sound.weight hw' hz
    obtain ⟨m'', e', e0, e1, -, e3⟩ := Precision.pushVal_cases order x w' m hz h4.ne'
    rw [e] at e'
    obtain rfl := Option.some.inj e'
    refine ⟨m', e, hm.step h hN hsm hw hx le_rfl (sq_nonneg B) hw' hr hz hs e0 e1 fun ho => ?_⟩
    rw [e3 ho, zero_mul, h.precision.lo.zero, zero_add, h.precision.hi.idem]

theorem Near.pushData (h : Accurate R u) (hN : n + 1 ≤ N) (hsm : 16 * ((N + 5) * u) ≤ 1)
    (hm : Near R u B order N n S0 S1 S2 m) {w w' : K} {data : Mom K} (hw : 0 ≤ w) (hx : |data 1| ≤ B)
    (hd0 : 0 ≤ data 2) (hd : data 2 ≤ B ^ 2) (hw' : IsWeight R w') (hr : ∃ r, Fac u r ∧ w' = w * r) :
    ∃ m', R.pushDataBody order w' data m = some m' ∧
      Near R u B order N (n + 1) (S0 + w) (S1 + w * data 1) (S2 + w * (data 2 + data 1 ^ 2)) m' := by
  have hB : 0 ≤ B := (abs_nonneg _).trans hx
  by_cases hz : w' = 0
  · obtain ⟨r, hr, e⟩ := hr
    have hw0 := hr.ne_zero_of (h.small hsm) e hz
    refine ⟨m, by unfold Precision.pushDataBody; rw [if_pos hz], ?_⟩
    rw [hw0, zero_mul, zero_mul, add_zero, add_zero, add_zero]
    exact hm.mono h.nonneg hB hN hsm
  · obtain ⟨m', e, hs, -⟩ := Precision.pushDataBody_sound h.precision order hw' hd0 hm.sound
    obtain ⟨-, -, -, h4, -⟩ := h.precision.push_numbers hm.sound.weight hw' hz
    obtain ⟨m'', e', e0, e1, -, e3⟩ := Precision.pushDataBody_cases order w' data m hz h4.ne'
    rw [e] at e'
    obtain rfl := Option.some.inj e'
    exact ⟨m', e, hm.step h hN hsm hw hx hd0 hd hw' hr hz hs e0 e1 e3⟩

/-- Nothing pushed yet. -/
theorem Near.zero (h : Accurate R u) (hB : 0 ≤ B) (order N : ℕ) : Near R u B order N 0 0 0 0 (fun _ => 0) := by
  have hu := h.nonneg
  have h1 : (0 : K) ≤ (N + 5) * u := mul_nonneg (by positivity) hu
  refine ⟨le_rfl, by simp, le_rfl, by simp, ⟨h.precision.weight_zero, le_rfl⟩,
    ⟨1, Fac.one (mul_nonneg (Nat.cast_nonneg _) hu), by simp⟩, ?_, fun _ _ => ?_⟩
  · simp only [div_zero, sub_zero, abs_zero, Nat.cast_zero, zero_mul, mul_zero, add_zero]
    positivity
  · simp only [div_zero, sub_zero, abs_zero, Nat.cast_zero, zero_mul, mul_zero, add_zero, ne_eq, OfNat.ofNat_ne_zero,
      not_false_eq_true, zero_pow]
    positivity

/-- The sums of the records. -/
def recSum1 (L : List (Record K)) : K := (L.map fun a => a.w * a.x).sum

/-- See `recSum1`. -/
def recSum2 (L : List (Record K)) : K := (L.map fun a => a.w * (a.d + a.x ^ 2)).sum

omit [LinearOrder K] [IsStrictOrderedRing K] in
theorem recVar_eq {L : List (Record K)} (hL : recWeight L ≠ 0) :
    recVar L = recSum2 L / recWeight L - (recSum1 L / recWeight L) ^ 2 := by
  have key : ∀ c : K, (L.map fun a => a.w * (a.d + (a.x - c) ^ 2)).sum
      = recSum2 L - 2 * c * recSum1 L + c ^ 2 * recWeight L := by
    intro c
    unfold recSum1 recSum2 recWeight
    clear hL
    induction L with
    | nil => simp
    | cons a L ih =>
      simp only [List.map_cons, List.sum_cons, ih]
      ring
  unfold recVar
  rw [key, show recMean L = recSum1 L / recWeight L from rfl]
  field_simp
  ring

/-- Pushing a list of records one after the other. -/
theorem Near.foldlM {α : Type*} (step : Mom K → α → Option (Mom K)) (rec_ : α → Record K) (ok : α → Prop)
    (hstep : ∀ {n S0 S1 S2 m a}, ok a → n + 1 ≤ N → Near R u B order N n S0 S1 S2 m →
      ∃ m', step m a = some m' ∧ Near R u B order N (n + 1) (S0 + (rec_ a).w) (S1 + (rec_ a).w * (rec_ a).x)
        (S2 + (rec_ a).w * ((rec_ a).d + (rec_ a).x ^ 2)) m') {l : List α} (hl : ∀ a ∈ l, ok a)
    (hN : n + l.length ≤ N) (hm : Near R u B order N n S0 S1 S2 m) :
    ∃ m', l.foldlM step m = some m' ∧ Near R u B order N (n + l.length) (S0 + recWeight (l.map rec_))
      (S1 + recSum1 (l.map rec_)) (S2 + recSum2 (l.map rec_)) m' := by
  induction l generalizing n S0 S1 S2 m with
  | nil => exact ⟨m, rfl, by simpa [recWeight, recSum1, recSum2] using hm⟩
  | cons a l ih =>
    rw [List.length_cons] at hN
    obtain ⟨m1, e1, h1⟩ := hstep (hl a List.mem_cons_self) (by omega) hm
    obtain ⟨m2, e2, h2⟩ := ih (fun a ha => hl a (List.mem_cons_of_mem _ ha)) (by omega) h1
    refine ⟨m2, ?_, ?_⟩
    · rw [List.foldlM_cons, e1]
      exact e2
    · have q : n + 1 + l.length = n + (a :: l).length := by rw [List.length_cons]; omega
      rw [q] at h2
      simp only [recWeight, recSum1, recSum2, List.map_cons, List.sum_cons, ← add_assoc] at h2 ⊢
      exact h2

/-- The errors after all records. -/
theorem Near.almost {L : List (Record K)} (hu : 0 ≤ u) (hB : 0 ≤ B) (hn : n ≤ N) (hN : N ≤ L.length)
    (hsm : 16 * ((L.length + 5) * u) ≤ 1)
    (h : Near R u B order N n (recWeight L) (recSum1 L) (recSum2 L) m) : AlmostOf u B order L m := by
  have c1 : ((N : K) + 5) * u ≤ (L.length + 5) * u :=
    mul_le_mul_of_nonneg_right (by exact_mod_cast (by omega : N + 5 ≤ L.length + 5)) hu
  have c2 : (n : K) * u ≤ (L.length + 5) * u :=
    mul_le_mul_of_nonneg_right (by exact_mod_cast (by omega : n ≤ L.length + 5)) hu
  have c3 : ((n + 1 : ℕ) : K) * u ≤ (L.length + 1) * u :=
    mul_le_mul_of_nonneg_right (by exact_mod_cast (by omega : n + 1 ≤ L.length + 1)) hu
  have c4 : ((L.length : K) + 1) * u ≤ (L.length + 5) * u := mul_le_mul_of_nonneg_right (by linarith) hu
  have hB2 := sq_nonneg B
  refine ⟨?_, h.mean.trans ?_, fun ho hs => ?_⟩
  · obtain ⟨r, hr, e⟩ := h.weight
    have hr := hr.mono c3 (by linarith)
    have h0 := h.sum0
    rw [e]
    constructor
    · rw [mul_comm]
      exact mul_le_mul_of_nonneg_left hr.low h0
    · have := mul_le_mul_of_nonneg_left hr.up h0
      linarith
  · have := mul_le_mul_of_nonneg_right c1 hB
    have := mul_le_mul_of_nonneg_right c2 hB
    linarith
  · have hv := h.var ho (by linarith)
    have d1 := mul_le_mul_of_nonneg_right c1 hB2
    have d2 := mul_le_mul_of_nonneg_right c2 hB2
    have d3 : 0 ≤ ((L.length : K) + 5) * u * B ^ 2 :=
      mul_nonneg (mul_nonneg (by positivity) hu) hB2
    have e : recVar L = recSum2 L / recWeight L - (recSum1 L / recWeight L) ^ 2 := by
      by_cases hL : recWeight L = 0
      · unfold recVar
        rw [hL]
        simp
      · exact recVar_eq hL
    rw [e]
    refine hv.trans ?_
    linarith

end Cmomy
