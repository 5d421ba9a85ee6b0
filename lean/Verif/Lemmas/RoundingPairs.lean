import Verif.Lemmas.RoundingError
import Verif.Spec.RoundingPairs

/-!
# Lemmas on the errors of covariances
-/

namespace Cmomy

open Spec

variable {K : Type*} [Field K] [LinearOrder K] [IsStrictOrderedRing K]

/-! ### One step -/

/-- The error of the covariance after one more sample. -/
theorem cov_step {a x m μ y k ν B C T u d v V ev r g1 g2 g3 : K} (ha0 : 0 ≤ a) (ha1 : a ≤ 1) (hx : |x| ≤ B)
    (hμ : |μ| ≤ B) (hy : |y| ≤ C) (hν : |ν| ≤ C) (hT0 : 0 ≤ T) (hT : 16 * T ≤ 1) (he : |m - μ| ≤ 16 * T * B)
    (hk : |k - ν| ≤ 16 * T * C) (hd : |d| ≤ B * C) (hV : |V| ≤ 4 * (B * C)) (hev : |V - v| ≤ ev)
    (hr : |r - 1| ≤ 2 * T) (har : a * r ≤ 1) (har0 : 0 ≤ a * r) (hg1 : |g1 - 1| ≤ 4 * T) (hg2 : |g2 - 1| ≤ 10 * u)
    (hg3 : |g3 - 1| ≤ 6 * T) (hg0 : 0 ≤ g3) (hg : g3 ≤ 2) :
    |d * a * g1 + (1 - a * r) * g2 * (V + (x - m) * (y - k) * a * g3)
        - (d * a + (1 - a) * (v + (x - μ) * (y - ν) * a))|
      ≤ (1 - a) * ev + a * (182 * T * (B * C)) + 220 * u * (B * C) := by
  have hB : 0 ≤ B := (abs_nonneg _).trans hx
  have hC : 0 ≤ C := (abs_nonneg _).trans hy
  have hBC : 0 ≤ B * C := mul_nonneg hB hC
  have diff : ∀ {x m μ B : K}, 0 ≤ B → |x| ≤ B → |μ| ≤ B → |m - μ| ≤ 16 * T * B → |x - m| ≤ 3 * B ∧ |x - μ| ≤ 2 * B := by
    intro x m μ B hB hx hμ he
    have hTB : 16 * T * B ≤ B := by nlinarith
    have e : x - m = x - μ - (m - μ) := by ring
    have h1 : |x - μ| ≤ 2 * B := by linarith [abs_sub x μ]
    refine ⟨?_, h1⟩
    rw [e]
    linarith [abs_sub (x - μ) (m - μ)]
  obtain ⟨hxm, hxμ⟩ := diff hB hx hμ he
  obtain ⟨hyk, hyν⟩ := diff hC hy hν hk
  have hD : |(x - m) * (y - k)| ≤ 9 * (B * C) := by
    rw [abs_mul]
    calc _ ≤ 3 * B * (3 * C) := mul_le_mul hxm hyk (abs_nonneg _) (by linarith)
      _ = _ := by ring
  have hDD : |(x - m) * (y - k) - (x - μ) * (y - ν)| ≤ 80 * T * (B * C) := by
    have e : (x - m) * (y - k) - (x - μ) * (y - ν) = -((m - μ) * (y - k)) - (x - μ) * (k - ν) := by ring
    rw [e]
    have h1 : |(m - μ) * (y - k)| ≤ 48 * T * (B * C) := by
      rw [abs_mul]
      calc _ ≤ 16 * T * B * (3 * C) := mul_le_mul he hyk (abs_nonneg _) ((abs_nonneg _).trans he)
        _ = _ := by ring
    have h2 : |(x - μ) * (k - ν)| ≤ 32 * T * (B * C) := by
      rw [abs_mul]
      calc _ ≤ 2 * B * (16 * T * C) := mul_le_mul hxμ hk (abs_nonneg _) (by linarith)
        _ = _ := by ring
    have h3 := abs_sub (-((m - μ) * (y - k))) ((x - μ) * (k - ν))
    rw [abs_neg] at h3
    linarith
  generalize (x - m) * (y - k) = D at *
  generalize (x - μ) * (y - ν) = D' at *
  generalize B * C = E at *
  have hq : |D * a * g3| ≤ 18 * E := by
    have h1 : a * g3 ≤ 2 := by nlinarith
    have h0 : 0 ≤ a * g3 := mul_nonneg ha0 hg0
    rw [mul_assoc, abs_mul, abs_of_nonneg h0]
    calc _ ≤ 9 * E * 2 := mul_le_mul hD h1 h0 (by linarith)
      _ = 18 * E := by ring
  have hP : |V + D * a * g3| ≤ 22 * E := by linarith [abs_add_le V (D * a * g3)]
  set P := V + D * a * g3 with hPdef
  have t1 : |d * a * (g1 - 1)| ≤ a * (4 * T * E) := by
    rw [mul_comm d a, mul_assoc, abs_mul, abs_of_nonneg ha0, abs_mul]
    refine mul_le_mul_of_nonneg_left ?_ ha0
    calc |d| * |g1 - 1| ≤ E * (4 * T) := mul_le_mul hd hg1 (abs_nonneg _) hBC
      _ = _ := by ring
  have t2 : |(g2 - 1) * ((1 - a * r) * P)| ≤ 220 * u * E := by
    rw [abs_mul]
    have h1 : |(1 - a * r) * P| ≤ 22 * E := by
      rw [abs_mul, abs_of_nonneg (by linarith : 0 ≤ 1 - a * r)]
      calc (1 - a * r) * |P| ≤ 1 * |P| := mul_le_mul_of_nonneg_right (by linarith) (abs_nonneg _)
        _ ≤ 22 * E := by linarith
    calc _ ≤ 10 * u * (22 * E) := mul_le_mul hg2 h1 (abs_nonneg _) ((abs_nonneg _).trans hg2)
      _ = _ := by ring
  have t3 : |(1 - a) * (V - v)| ≤ (1 - a) * ev := by
    rw [abs_mul, abs_of_nonneg (by linarith : 0 ≤ 1 - a)]
    exact mul_le_mul_of_nonneg_left hev (by linarith)
  have t4 : |a * (r - 1) * P| ≤ a * (44 * T * E) := by
    rw [abs_mul, abs_mul, abs_of_nonneg ha0, mul_assoc]
    refine mul_le_mul_of_nonneg_left ?_ ha0
    calc |r - 1| * |P| ≤ 2 * T * (22 * E) := mul_le_mul hr hP (abs_nonneg _) (by linarith)
      _ = _ := by ring
  have t5 : |D * (g3 - 1)| ≤ 54 * T * E := by
    rw [abs_mul]
    calc _ ≤ 9 * E * (6 * T) := mul_le_mul hD hg3 (abs_nonneg _) (by linarith)
      _ = _ := by ring
  have t7 : |(1 - a) * a * (D * (g3 - 1) + (D - D'))| ≤ a * (134 * T * E) := by
    rw [abs_mul, abs_of_nonneg (mul_nonneg (by linarith) ha0 : 0 ≤ (1 - a) * a)]
    have h1 := abs_add_le (D * (g3 - 1)) (D - D')
    have h2 : (1 - a) * a ≤ a := by nlinarith
    exact mul_le_mul h2 (by linarith) (abs_nonneg _) ha0
  have e : d * a * g1 + (1 - a * r) * g2 * P - (d * a + (1 - a) * (v + D' * a))
      = d * a * (g1 - 1) + (g2 - 1) * ((1 - a * r) * P) + (1 - a) * (V - v) - a * (r - 1) * P
        + (1 - a) * a * (D * (g3 - 1) + (D - D')) := by
    rw [hPdef]
    ring
  rw [e]
  have a1 := abs_add_le (d * a * (g1 - 1)) ((g2 - 1) * ((1 - a * r) * P))
  have a2 := abs_add_le (d * a * (g1 - 1) + (g2 - 1) * ((1 - a * r) * P)) ((1 - a) * (V - v))
  have a3 := abs_sub (d * a * (g1 - 1) + (g2 - 1) * ((1 - a * r) * P) + (1 - a) * (V - v)) (a * (r - 1) * P)
  have a4 := abs_add_le (d * a * (g1 - 1) + (g2 - 1) * ((1 - a * r) * P) + (1 - a) * (V - v) - a * (r - 1) * P)
    ((1 - a) * a * (D * (g3 - 1) + (D - D')))
  have e3 : a * (182 * T * E) = a * (4 * T * E) + a * (44 * T * E) + a * (134 * T * E) := by ring
  rw [e3]
  linarith

/-- The covariance of the sums after one more record. -/
theorem exact_cov {S0 Sx Sy Sxy B C : K} (hS0 : 0 ≤ S0) (hSx : |Sx| ≤ B * S0) (hSy : |Sy| ≤ C * S0)
    (hSxy : |Sxy| ≤ 2 * (B * C) * S0) (hB : 0 ≤ B) (hC : 0 ≤ C) {w : K} (hw : 0 < w) (x y d : K) :
    |Sx / S0| ≤ B ∧ |Sy / S0| ≤ C ∧ |Sxy / S0| ≤ 2 * (B * C) ∧
    (Sxy + w * (d + x * y)) / (S0 + w) - (Sx + w * x) / (S0 + w) * ((Sy + w * y) / (S0 + w))
      = d * (w / (S0 + w))
        + (1 - w / (S0 + w)) * (Sxy / S0 - Sx / S0 * (Sy / S0) + (x - Sx / S0) * (y - Sy / S0) * (w / (S0 + w))) := by
  have hS : 0 < S0 + w := by linarith
  have quot : ∀ {S D : K}, 0 ≤ D → |S| ≤ D * S0 → S0 * (S / S0) = S ∧ |S / S0| ≤ D := by
    intro S D hD h
    rcases eq_or_lt_of_le hS0 with hz | hz
    · rw [← hz, mul_zero] at h
      rw [← hz, zero_mul, abs_eq_zero.1 (le_antisymm h (abs_nonneg _)), div_zero, abs_zero]
      exact ⟨rfl, hD⟩
    · refine ⟨mul_div_cancel₀ _ hz.ne', ?_⟩
      rw [abs_div, abs_of_pos hz, div_le_iff₀ hz]
      exact h
  obtain ⟨e1, h1⟩ := quot hB hSx
  obtain ⟨e2, h2⟩ := quot hC hSy
  obtain ⟨e3, h3⟩ := quot (mul_nonneg zero_le_two (mul_nonneg hB hC)) hSxy
  refine ⟨h1, h2, h3, ?_⟩
  generalize Sx / S0 = μ at *
  generalize Sy / S0 = ν at *
  generalize Sxy / S0 = q at *
  rw [← e1, ← e2, ← e3]
  field_simp
  ring

/-! ### The value of an entry -/

/-- An entry of second order after a push. -/
def secondVal (R : Precision K) (δ0 δ1 V d α β : K) : K :=
  R.lo (R.hi (R.hi (R.hi (β * V) + R.hi (α * d))
    + R.hi (R.hi (δ0 * δ1) * R.hi (R.hi (R.hi (α * α) * β) + R.hi (R.hi (β * β) * α)))))

variable {R : Precision K} {u B C : K} {N n : ℕ}

theorem pushDataCovTmp_second (h : IsPrecision R) {δ0 δ1 α β : K} (h0 : R.hi δ0 = δ0) (h1 : R.hi δ1 = δ1)
    (hα : R.hi α = α) (hβ : R.hi β = β) (data out : Com K) :
    R.pushDataCovTmp 1 1 δ0 δ1 α β data out = secondVal R δ0 δ1 (out 1 1) (data 1 1) α β ∧
    R.pushDataCovTmp 2 0 δ0 δ1 α β data out = secondVal R δ0 δ0 (out 2 0) (data 2 0) α β ∧
    R.pushDataCovTmp 0 2 δ0 δ1 α β data out = secondVal R δ1 δ1 (out 0 2) (data 0 2) α β := by
  have f1 : R.factor 1 0 = 1 := by simp [Precision.factor, binom_eq_choose, h.hi.one]
  have f2 : R.factor 2 0 = 1 := by simp [Precision.factor, binom_eq_choose, h.hi.one]
  have f3 : R.factor 0 0 = 1 := by simp [Precision.factor, binom_eq_choose, h.hi.one]
  refine ⟨?_, ?_, ?_⟩
  all_goals
    simp only [Precision.pushDataCovTmp, List.range_succ, List.range_zero, List.nil_append, List.foldl_append,
      List.foldl_cons, List.foldl_nil, Precision.pushDataCovInner0, Precision.pushDataCovInner1, CAcc0.init, secondVal]
    norm_num
    simp [h.hi.neg, h.hi.one, h.hi.idem, h0, h1, hα, hβ, f1, f2, f3]

/-- The value in terms of factors. -/
theorem second_factors (h : Accurate R u) (hM : ((n + 14 : ℕ) : K) * u < 1) {a ra X Y f f' V d : K}
    (hra : Fac ((n + 4 : ℕ) * u) ra) (ha0 : 0 ≤ a * ra) (ha1 : a * ra ≤ 1) (hf : Fac u f) (hf' : Fac u f') :
    ∃ g1 g2 g3, Fac ((n + 8 : ℕ) * u) g1 ∧ Fac ((5 : ℕ) * u) g2 ∧ Fac ((n + 14 : ℕ) * u) g3 ∧
      secondVal R (X * f) (Y * f') V d (a * ra) (R.hi (1 - a * ra))
        = d * a * g1 + (1 - a * ra) * g2 * (V + X * Y * a * g3) := by
  have hu := h.nonneg
  have hu1 : u < 1 := lt_of_le_of_lt (le_mul_of_one_le_left hu (by push_cast; linarith [Nat.cast_nonneg (α := K) n])) hM
  have one : ∀ {r : K}, Fac u r → Fac ((1 : ℕ) * u) r := fun h => by simpa using h
  unfold secondVal
  obtain ⟨b, hb, eb⟩ := round_fac hu1 h.hi (1 - a * ra)
  rw [eb]
  generalize hs : a * ra = s at *
  obtain ⟨p1, hp1, e1⟩ := round_fac hu1 h.hi ((1 - s) * b * V)
  rw [e1]
  obtain ⟨p2, hp2, e2⟩ := round_fac hu1 h.hi (s * d)
  rw [e2]
  obtain ⟨p3, hp3, e3⟩ := round_fac hu1 h.hi ((1 - s) * b * V * p1 + s * d * p2)
  rw [e3]
  obtain ⟨q1, hq1, e4⟩ := round_fac hu1 h.hi (s * s)
  rw [e4]
  obtain ⟨q2, hq2, e5⟩ := round_fac hu1 h.hi (s * s * q1 * ((1 - s) * b))
  rw [e5]
  obtain ⟨q3, hq3, e6⟩ := round_fac hu1 h.hi ((1 - s) * b * ((1 - s) * b))
  rw [e6]
  obtain ⟨q4, hq4, e7⟩ := round_fac hu1 h.hi ((1 - s) * b * ((1 - s) * b) * q3 * s)
  rw [e7]
  have c3 : ((3 : ℕ) : K) * u < 1 :=
    lt_of_le_of_lt (mul_le_mul_of_nonneg_right (by exact_mod_cast (by omega : 3 ≤ n + 14)) hu) hM
  obtain ⟨P, hP, eP⟩ := (((one hq1).mulN (one hq2) hu hM (by omega)).monoN (l := 3) hu hM (by omega) (by omega)).add
    (((one hb).mulN (one hq3) hu hM (by omega)).mulN (one hq4) hu hM (by omega)) (mul_nonneg (Nat.cast_nonneg _) hu) c3
    ha0 (by linarith : 0 ≤ 1 - s)
  have e8 : s * s * q1 * ((1 - s) * b) * q2 + (1 - s) * b * ((1 - s) * b) * q3 * s * q4 = s * (1 - s) * b * P := by
    have : s * (q1 * q2) + (1 - s) * (b * q3 * q4) = P := by rw [eP]; ring
    rw [← this]
    ring
  rw [e8]
  obtain ⟨q5, hq5, e9⟩ := round_fac hu1 h.hi (s * (1 - s) * b * P)
  rw [e9]
  obtain ⟨q6, hq6, e10⟩ := round_fac hu1 h.hi (X * f * (Y * f'))
  rw [e10]
  obtain ⟨q7, hq7, e11⟩ := round_fac hu1 h.hi (X * f * (Y * f') * q6 * (s * (1 - s) * b * P * q5))
  rw [e11]
  obtain ⟨p4, hp4, e12⟩ := round_fac hu1 h.hi (((1 - s) * b * V * p1 + s * d * p2) * p3
    + X * f * (Y * f') * q6 * (s * (1 - s) * b * P * q5) * q7)
  rw [e12]
  obtain ⟨p5, hp5, e13⟩ := round_fac hu1 h.lo ((((1 - s) * b * V * p1 + s * d * p2) * p3
    + X * f * (Y * f') * q6 * (s * (1 - s) * b * P * q5) * q7) * p4)
  rw [e13]
  have g1 := (((hra.mulN (one hp2) hu hM (by omega)).mulN (one hp3) hu hM (by omega)).mulN (one hp4) hu hM
    (by omega)).mulN (one hp5) hu hM (by omega)
  have g2 := ((((one hb).mulN (one hp1) hu hM (by omega)).mulN (one hp3) hu hM (by omega)).mulN (one hp4) hu hM
    (by omega)).mulN (one hp5) hu hM (by omega)
  have hp13 := (one hp1).mulN (one hp3) hu hM (by omega)
  have g3 := ((((((hra.mulN hP hu hM (by omega)).mulN (one hq5) hu hM (by omega)).mulN (one hq6) hu hM
    (by omega)).mulN (one hq7) hu hM (by omega)).mulN (one hf) hu hM (by omega)).mulN (one hf') hu hM
    (by omega)).mulN (hp13.invN hu hM (by omega)) hu hM (by omega)
  refine ⟨_, _, _, g1.monoN hu hM (by omega) (by omega), g2.monoN hu hM (by omega) (by omega),
    g3.monoN hu hM (by omega) (by omega), ?_⟩
  have n1 := (hp1.pos hu1).ne'
  have n3 := (hp3.pos hu1).ne'
  rw [← hs]
  field_simp
  ring

/-! ### Sums of a list of records -/

/-- Weight and average as moments. -/
def mom3 (c0 c1 : K) : Mom K := fun i => if i = 0 then c0 else if i = 1 then c1 else 0

/-- Weight, averages and covariance are close to those of records with the sums `S0` of weights, `Sx` and `Sy` of
weighted averages and `Sxy` of weighted products, after `n` of `N` records. -/
structure NearPair (R : Precision K) (u B C : K) (N n : ℕ) (S0 Sx Sy Sxy c0 cx cy c : K) : Prop where
  first : ∃ S2, Near R u B 1 N n S0 Sx S2 (mom3 c0 cx)
  second : ∃ S2, Near R u C 1 N n S0 Sy S2 (mom3 c0 cy)
  sum : |Sxy| ≤ 2 * (B * C) * S0
  cov : 450 * ((N + 5) * u) ≤ 1 →
    |c - (Sxy / S0 - Sx / S0 * (Sy / S0))| ≤ 182 * ((N + 5) * u) * (B * C) + 220 * (n * u) * (B * C)

variable {S0 Sx Sy Sxy c0 cx cy c : K}

theorem NearPair.mono (h : NearPair R u B C N n S0 Sx Sy Sxy c0 cx cy c) (hu : 0 ≤ u) (hB : 0 ≤ B) (hC : 0 ≤ C)
    (hN : n + 1 ≤ N) (hsm : 16 * ((N + 5) * u) ≤ 1) : NearPair R u B C N (n + 1) S0 Sx Sy Sxy c0 cx cy c := by
  obtain ⟨A, hA⟩ := h.first
  obtain ⟨D, hD⟩ := h.second
  refine ⟨⟨A, hA.mono hu hB hN hsm⟩, ⟨D, hD.mono hu hC hN hsm⟩, h.sum, fun h1 => (h.cov h1).trans ?_⟩
  have c3 : (n : K) * u ≤ ((n + 1 : ℕ) : K) * u := mul_le_mul_of_nonneg_right (by exact_mod_cast n.le_succ) hu
  have := mul_le_mul_of_nonneg_right c3 (mul_nonneg hB hC)
  linarith

/-- One more record. -/
theorem NearPair.step (h : Accurate R u) (hN : n + 1 ≤ N) (hsm : 16 * ((N + 5) * u) ≤ 1)
    (hm : NearPair R u B C N n S0 Sx Sy Sxy c0 cx cy c) {w x y d w' : K} (hw : 0 ≤ w) (hx : |x| ≤ B) (hy : |y| ≤ C)
    (hd : |d| ≤ B * C) (hw' : IsWeight R w') (hr : ∃ r, Fac u r ∧ w' = w * r) (hne : w' ≠ 0) {c0' cx' cy' c' : K}
    (e0 : c0' = R.lo (c0 + w'))
    (ex : cx' = R.lo (cx + R.lo (R.lo (x - cx) * R.lo (w' / R.lo (c0 + w')))))
    (ey : cy' = R.lo (cy + R.lo (R.lo (y - cy) * R.lo (w' / R.lo (c0 + w')))))
    (ec : c' = secondVal R (R.lo (x - cx)) (R.lo (y - cy)) c d (R.lo (w' / R.lo (c0 + w')))
      (R.hi (1 - R.lo (w' / R.lo (c0 + w'))))) :
    NearPair R u B C N (n + 1) (S0 + w) (Sx + w * x) (Sy + w * y) (Sxy + w * (d + x * y)) c0' cx' cy' c' := by
  have hu := h.nonneg
  have hB : 0 ≤ B := (abs_nonneg _).trans hx
  have hC : 0 ≤ C := (abs_nonneg _).trans hy
  have hBC : 0 ≤ B * C := mul_nonneg hB hC
  obtain ⟨A, hA⟩ := hm.first
  obtain ⟨D, hD⟩ := hm.second
  have hwt : IsWeight R c0 := hA.sound.weight
  obtain ⟨q1, -, -, -, q5, q6, -, -⟩ := h.precision.push_numbers hwt hw' hne
  have snd : ∀ k : K, Sound R (mom3 c0' k) := fun k => ⟨e0 ▸ q1, le_rfl⟩
  refine ⟨⟨_, hA.step (d := 0) h hN hsm hw hx le_rfl (sq_nonneg B) hw' hr hne (snd cx') e0 ex (fun h => absurd rfl h)⟩,
    ⟨_, hD.step (d := 0) h hN hsm hw hy le_rfl (sq_nonneg C) hw' hr hne (snd cy') e0 ey (fun h => absurd rfl h)⟩,
    ?_, fun hsm' => ?_⟩
  · have h1 : |w * (d + x * y)| ≤ w * (2 * (B * C)) := by
      rw [abs_mul, abs_of_nonneg hw]
      refine mul_le_mul_of_nonneg_left ((abs_add_le _ _).trans ?_) hw
      have : |x * y| ≤ B * C := by
        rw [abs_mul]
        exact mul_le_mul hx hy (abs_nonneg _) hB
      linarith
    linarith [abs_add_le Sxy (w * (d + x * y)), hm.sum]
  · have cast : ∀ k : ℕ, k ≤ N + 5 → (k : K) * u ≤ (N + 5) * u := fun k hk =>
      mul_le_mul_of_nonneg_right (by exact_mod_cast hk) hu
    have cast3 : ∀ k : ℕ, k ≤ 3 * (N + 5) → (k : K) * u ≤ 3 * ((N + 5) * u) := fun k hk => by
      rw [← mul_assoc]
      exact mul_le_mul_of_nonneg_right (by exact_mod_cast hk) hu
    have cast2 : ∀ k : ℕ, k ≤ 2 * (N + 5) → (k : K) * u ≤ 2 * ((N + 5) * u) := fun k hk => by
      rw [← mul_assoc]
      exact mul_le_mul_of_nonneg_right (by exact_mod_cast hk) hu
    have c1 : (n : K) * u ≤ (N + 5) * u := cast n (by omega)
    have c3 := cast (n + 4) (by omega)
    have c4 := cast2 (n + 8) (by omega)
    have c5 := cast3 (n + 14) (by omega)
    have c6 : ((5 : ℕ) : K) * u ≤ (N + 5) * u := cast 5 (by omega)
    have c8 := cast2 (n + 8) (by omega)
    have c9 : (0 : K) ≤ n * u := mul_nonneg (Nat.cast_nonneg n) hu
    have hme : |cx - Sx / S0| ≤ _ := hA.mean
    have hke : |cy - Sy / S0| ≤ _ := hD.mean
    have hve := hm.cov hsm'
    obtain ⟨r0, hr0, em0⟩ := hA.weight
    obtain ⟨rw_, hrw, ew⟩ := hr
    have hwpos : 0 < w := by
      rcases eq_or_lt_of_le hw with hz | hz
      · exact absurd (by rw [ew, ← hz, zero_mul]) hne
      · exact hz
    have hS : 0 < S0 + w := by linarith [hA.sum0]
    obtain ⟨-, ra, -, -, -, -, -, -, k2, -, -, -, -, -, -, j2, -, -⟩ :=
      push_factors (o0 := c0) (o1 := 0) (o2 := 0) (x := 0) (d := 0) h
        (lt_of_le_of_lt c8 (by linarith)) hA.sum0 hwpos (by simpa using hrw) ew hr0 em0
    obtain ⟨hμ, hν, hq, ev⟩ := exact_cov hA.sum0 hA.sum1 hD.sum1 hm.sum hB hC hwpos x y d
    have hu1 := h.small hsm
    obtain ⟨f, hf, ef⟩ := round_fac hu1 h.lo (x - cx)
    obtain ⟨f', hf', ef'⟩ := round_fac hu1 h.lo (y - cy)
    rw [j2] at q5 q6
    obtain ⟨g1, g2, g3, k5, k6, k7, j4⟩ := second_factors (X := x - cx) (Y := y - cy) (V := c) (d := d) h
      (lt_of_le_of_lt c5 (by linarith)) k2 q5 q6 hf hf'
    rw [ef, ef', j2, j4] at ec
    rw [ec, ev]
    have ha0 : 0 ≤ w / (S0 + w) := div_nonneg hw hS.le
    have ha1 : w / (S0 + w) ≤ 1 := (div_le_one hS).2 (by linarith [hA.sum0])
    have eT : (((n + 1 : ℕ) : K)) * u = n * u + u := by push_cast; ring
    clear hA hD hm cast cast2 cast3
    rw [eT]
    generalize w / (S0 + w) = a at *
    generalize ((N : K) + 5) * u = T at *
    have hT0 : 0 ≤ T := c9.trans c1
    have hE : ∀ {B : K}, 0 ≤ B → 6 * T * B + 10 * (n * u) * B ≤ 16 * T * B := fun hB => by
      have := mul_le_mul_of_nonneg_right c1 hB
      linarith
    have hTE : T * (B * C) ≤ 1 / 450 * (B * C) := mul_le_mul_of_nonneg_right (by linarith) hBC
    have hnTE : ((n : K) * u) * (B * C) ≤ T * (B * C) := mul_le_mul_of_nonneg_right c1 hBC
    have hμν : |Sx / S0 * (Sy / S0)| ≤ B * C := by
      rw [abs_mul]
      exact mul_le_mul hμ hν (abs_nonneg _) hB
    have hV : |c| ≤ 4 * (B * C) := by
      have h1 := abs_sub (Sxy / S0) (Sx / S0 * (Sy / S0))
      have h2 := abs_add_le (c - (Sxy / S0 - Sx / S0 * (Sy / S0))) (Sxy / S0 - Sx / S0 * (Sy / S0))
      rw [sub_add_cancel] at h2
      linarith
    have h5 := k6.err (c6.trans (by linarith))
    have e5 : ((5 : ℕ) : K) = 5 := by norm_num
    rw [e5] at h5
    refine (cov_step (T := T) (u := u) (ev := 182 * T * (B * C) + 220 * (n * u) * (B * C)) ha0 ha1 hx hμ hy hν hT0 hsm
      (hme.trans (hE hB)) (hke.trans (hE hC)) hd hV hve ((k2.err (by linarith)).trans (by linarith)) q6 q5
      ((k5.err (by linarith)).trans (by linarith)) (h5.trans (by linarith))
      ((k7.err (by linarith)).trans (by linarith)) (k7.pos (by linarith)).le (k7.le_two (by linarith))).trans ?_
    have := mul_nonneg ha0 (mul_nonneg c9 hBC)
    linarith

/-! ### Pushes -/

theorem pushDataCovTmp_congr {a0 a1 : ℕ} {δ0 δ1 α β : K} {data out out' : Com K}
    (ho : ∀ i j, i ≤ a0 → j ≤ a1 → out i j = out' i j) :
    R.pushDataCovTmp a0 a1 δ0 δ1 α β data out = R.pushDataCovTmp a0 a1 δ0 δ1 α β data out' := by
  have e1 : ∀ b0 d0, R.pushDataCovInner1 a0 a1 b0 d0 δ1 α β data out
      = R.pushDataCovInner1 a0 a1 b0 d0 δ1 α β data out' := by
    intro b0 d0
    funext s b1
    simp only [Precision.pushDataCovInner1, ho (a0 - b0) (a1 - b1) (by omega) (by omega)]
  have e0 : R.pushDataCovInner0 a0 a1 δ0 δ1 α β data out = R.pushDataCovInner0 a0 a1 δ0 δ1 α β data out' := by
    funext s b0
    unfold Precision.pushDataCovInner0
    simp only [e1]
  unfold Precision.pushDataCovTmp
  rw [e0]

/-- The entries up to second order after a push. -/
theorem pushDataCovBody_second (h : IsPrecision R) {o0 o1 : ℕ} (h0 : 1 ≤ o0) (h1 : 1 ≤ o1) {w : K} (data out : Com K)
    (hw : w ≠ 0) (hz : R.lo (out 0 0 + w) ≠ 0) :
    ∃ m, R.pushDataCovBody o0 o1 w data out = some m ∧ m 0 0 = R.lo (out 0 0 + w) ∧
      m 1 0 = R.lo (out 1 0 + R.lo (R.lo (data 1 0 - out 1 0) * R.lo (w / R.lo (out 0 0 + w)))) ∧
      m 0 1 = R.lo (out 0 1 + R.lo (R.lo (data 0 1 - out 0 1) * R.lo (w / R.lo (out 0 0 + w)))) ∧
      ∀ p : Second, p.Has o0 o1 → p.entry m = secondVal R (R.lo (p.fst data - p.fst out))
        (R.lo (p.snd data - p.snd out)) (p.entry out) (p.entry data) (R.lo (w / R.lo (out 0 0 + w)))
        (R.hi (1 - R.lo (w / R.lo (out 0 0 + w)))) := by
  refine ⟨_, Precision.pushDataCovBody_cases o0 o1 w data out hw hz, ?_⟩
  have key := foldl_overwrite (S := Com K) (ι := ℕ × ℕ) (K := K) (fun s p => s p.1 p.2)
    (fun s p v => setAt s p.1 p.2 v) (by intro s p v q; simp [setAt_apply, Prod.ext_iff])
    (fun p q => q.1 ≤ p.1 ∧ q.2 ≤ p.2)
    (fun p s => R.pushDataCovTmp p.1 p.2 (R.lo (data 1 0 - out 1 0)) (R.lo (data 0 1 - out 0 1))
      (R.lo (w / R.lo (out 0 0 + w))) (R.hi (1 - R.lo (w / R.lo (out 0 0 + w)))) data s)
    (fun p s s' hs => pushDataCovTmp_congr fun i j hi hj => hs (i, j) ⟨hi, hj⟩)
    (covPositions o0 o1) (nodup_covPositions _ _) (pairwise_covPositions _ _)
    (setAt (setAt (setAt out 0 0 (R.lo (out 0 0 + w))) 1 0 (R.lo (out 1 0 +
      R.lo (R.lo (data 1 0 - out 1 0) * R.lo (w / R.lo (out 0 0 + w)))))) 0 1
        (R.lo (out 0 1 + R.lo (R.lo (data 0 1 - out 0 1) * R.lo (w / R.lo (out 0 0 + w))))))
  simp only [mem_covPositions h0 h1] at key
  have s3 := fun s => pushDataCovTmp_second h (h.wider (data 1 0 - out 1 0)) (h.wider (data 0 1 - out 0 1))
    (h.wider (w / R.lo (out 0 0 + w))) (h.hi.idem (1 - R.lo (w / R.lo (out 0 0 + w)))) data s
  refine ⟨?_, ?_, ?_, fun p hp => ?_⟩
  · exact (key (0, 0)).trans (by simp [setAt_apply])
  · exact (key (1, 0)).trans (by simp [setAt_apply])
  · exact (key (0, 1)).trans (by simp [setAt_apply])
  · cases p with
    | cov =>
      refine (key (1, 1)).trans ?_
      rw [if_pos ⟨h0, h1, le_rfl⟩, (s3 _).1]
      simp [setAt_apply, Second.entry, Second.fst, Second.snd]
    | var0 =>
      have hp : 2 ≤ o0 := hp
      refine (key (2, 0)).trans ?_
      rw [if_pos ⟨hp, Nat.zero_le _, le_rfl⟩, (s3 _).2.1]
      simp [setAt_apply, Second.entry, Second.fst, Second.snd]
    | var1 =>
      have hp : 2 ≤ o1 := hp
      refine (key (0, 2)).trans ?_
      rw [if_pos ⟨Nat.zero_le _, hp, le_rfl⟩, (s3 _).2.2]
      simp [setAt_apply, Second.entry, Second.fst, Second.snd]

/-- The weight of the data is not read. -/
theorem pushDataCovBody_weight (h : IsPrecision R) (o0 o1 : ℕ) (x y w w1 w2 : K) (out : Com K) :
    R.pushDataCovBody o0 o1 w (valToDataCov x y w1) out = R.pushDataCovBody o0 o1 w (valToDataCov x y w2) out := by
  have hd : ∀ v, ∀ i j, 2 ≤ i + j → valToDataCov x y v i j = 0 := by
    intro v i j hij
    unfold valToDataCov
    simp only [setAt_apply, Prod.mk.injEq]
    rw [if_neg (by omega), if_neg (by omega), if_neg (by omega)]
  have h10 : ∀ v, valToDataCov x y v 1 0 = x := fun v => by unfold valToDataCov; simp [setAt_apply]
  have h01 : ∀ v, valToDataCov x y v 0 1 = y := fun v => by unfold valToDataCov; simp [setAt_apply]
  have e := fun a0 a1 δ0 δ1 α β o v => Precision.pushValCovTmp_eq h a0 a1 δ0 δ1 α β o (hd v)
  unfold Precision.pushDataCovBody
  simp only [e, h10, h01]

/-- The weighted sum of `f`. -/
def wtdSum (L : List (Weighted K)) (f : Com K → K) : K := (L.map fun a => a.w * f a.m).sum

omit [LinearOrder K] [IsStrictOrderedRing K] in
theorem wtdSum_snoc (L : List (Weighted K)) (a : Weighted K) (f : Com K → K) :
    wtdSum (L ++ [a]) f = wtdSum L f + a.w * f a.m := by
  simp [wtdSum]

omit [LinearOrder K] [IsStrictOrderedRing K] in
theorem wtdWeight_snoc (L : List (Weighted K)) (a : Weighted K) : wtdWeight (L ++ [a]) = wtdWeight L + a.w := by
  simp [wtdWeight]

/-- The comoments are close to those of the records, the first `n` of `N`. -/
def NearCov (R : Precision K) (u B0 B1 : K) (o0 o1 N n : ℕ) (L : List (Weighted K)) (m : Com K) : Prop :=
  ∀ p : Second, p.Has o0 o1 → NearPair R u (p.bound1 B0 B1) (p.bound2 B0 B1) N n (wtdWeight L) (wtdSum L p.fst)
    (wtdSum L p.snd) (wtdSum L fun d => p.entry d + p.fst d * p.snd d) (m 0 0) (p.fst m) (p.snd m) (p.entry m)

variable {B0 B1 : K} {o0 o1 : ℕ} {L : List (Weighted K)} {m : Com K}

omit [IsStrictOrderedRing K] in
theorem Second.bounds (hB0 : 0 ≤ B0) (hB1 : 0 ≤ B1) (p : Second) : 0 ≤ p.bound1 B0 B1 ∧ 0 ≤ p.bound2 B0 B1 := by
  cases p <;> exact ⟨by assumption, by assumption⟩

omit [IsStrictOrderedRing K] in
theorem Second.means {d : Com K} (h0 : |d 1 0| ≤ B0) (h1 : |d 0 1| ≤ B1) (p : Second) :
    |p.fst d| ≤ p.bound1 B0 B1 ∧ |p.snd d| ≤ p.bound2 B0 B1 := by
  cases p <;> exact ⟨by assumption, by assumption⟩

theorem NearCov.pushData (h : Accurate R u) (h0 : 1 ≤ o0) (h1 : 1 ≤ o1) (hN : n + 1 ≤ N)
    (hsm : 16 * ((N + 5) * u) ≤ 1) (hm : NearCov R u B0 B1 o0 o1 N n L m) {w w' : K} {data : Com K} (hw : 0 ≤ w)
    (hd : OkCov B0 B1 o0 o1 data) (hw' : IsWeight R w') (hr : ∃ r, Fac u r ∧ w' = w * r) :
    ∃ m', R.pushDataCovBody o0 o1 w' data m = some m' ∧
      NearCov R u B0 B1 o0 o1 N (n + 1) (L ++ [⟨w, data⟩]) m' := by
  have hB0 : 0 ≤ B0 := (abs_nonneg _).trans hd.mean0
  have hB1 : 0 ≤ B1 := (abs_nonneg _).trans hd.mean1
  by_cases hz : w' = 0
  · have hr0 := hr
    obtain ⟨r, hr, e⟩ := hr
    have hw0 := hr.ne_zero_of (h.small hsm) e hz
    refine ⟨m, by unfold Precision.pushDataCovBody; rw [if_pos hz], fun p hp => ?_⟩
    have hb := Second.bounds hB0 hB1 p
    have := (hm p hp).mono h.nonneg hb.1 hb.2 hN hsm
    simpa only [wtdSum_snoc, wtdWeight_snoc, hw0, zero_mul, add_zero] using this
  · obtain ⟨S2, hS⟩ := (hm .cov trivial).first
    have hwt : IsWeight R (m 0 0) := hS.sound.weight
    obtain ⟨-, -, -, h4, -⟩ := h.precision.push_numbers hwt hw' hz
    obtain ⟨m', e, e0, e10, e01, e2⟩ := pushDataCovBody_second h.precision h0 h1 data m hz h4.ne'
    refine ⟨m', e, fun p hp => ?_⟩
    have hq := Second.means hd.mean0 hd.mean1 p
    have := (hm p hp).step h hN hsm hw hq.1 hq.2 (hd.second p hp) hw' hr hz e0 (cx' := p.fst m') (cy' := p.snd m')
      (by cases p <;> first | exact e10 | exact e01) (by cases p <;> first | exact e10 | exact e01) (e2 p hp)
    simpa only [wtdSum_snoc, wtdWeight_snoc] using this

theorem NearCov.skip (h : Accurate R u) (hB0 : 0 ≤ B0) (hB1 : 0 ≤ B1) (hN : n + 1 ≤ N)
    (hsm : 16 * ((N + 5) * u) ≤ 1) (hm : NearCov R u B0 B1 o0 o1 N n L m) (data : Com K) :
    NearCov R u B0 B1 o0 o1 N (n + 1) (L ++ [⟨0, data⟩]) m := by
  intro p hp
  have hb := Second.bounds hB0 hB1 p
  have := (hm p hp).mono h.nonneg hb.1 hb.2 hN hsm
  simpa only [wtdSum_snoc, wtdWeight_snoc, zero_mul, add_zero] using this

/-- Nothing pushed yet. -/
theorem NearCov.zero (h : Accurate R u) (hB0 : 0 ≤ B0) (hB1 : 0 ≤ B1) (o0 o1 N : ℕ) :
    NearCov R u B0 B1 o0 o1 N 0 [] (fun _ _ => 0) := by
  have hu := h.nonneg
  intro p _
  have hb := Second.bounds hB0 hB1 p
  have e : mom3 (0 : K) 0 = fun _ => 0 := by
    funext i
    unfold mom3
    split_ifs <;> rfl
  have e1 : p.fst (fun _ _ => (0 : K)) = 0 := by cases p <;> rfl
  have e2 : p.snd (fun _ _ => (0 : K)) = 0 := by cases p <;> rfl
  have e3 : p.entry (fun _ _ => (0 : K)) = 0 := by cases p <;> rfl
  have h1 : (0 : K) ≤ (N + 5) * u := mul_nonneg (by positivity) hu
  simp only [wtdSum, wtdWeight, List.map_nil, List.sum_nil, e1, e2, e3]
  refine ⟨⟨0, e ▸ Near.zero h hb.1 1 N⟩, ⟨0, e ▸ Near.zero h hb.2 1 N⟩, by simp, fun _ => ?_⟩
  simp only [div_zero, sub_zero, abs_zero, Nat.cast_zero, zero_mul, mul_zero, add_zero]
  exact mul_nonneg (mul_nonneg (by norm_num) h1) (mul_nonneg hb.1 hb.2)

omit [IsStrictOrderedRing K] in
/-- Pushing a list of records one after the other. -/
theorem NearCov.foldlM {α : Type*} (step : Com K → α → Option (Com K)) (rec_ : α → Weighted K) (ok : α → Prop)
    (hstep : ∀ {n L m a}, ok a → n + 1 ≤ N → NearCov R u B0 B1 o0 o1 N n L m →
      ∃ m', step m a = some m' ∧ NearCov R u B0 B1 o0 o1 N (n + 1) (L ++ [rec_ a]) m') {l : List α}
    (hl : ∀ a ∈ l, ok a) (hN : n + l.length ≤ N) (hm : NearCov R u B0 B1 o0 o1 N n L m) :
    ∃ m', l.foldlM step m = some m' ∧ NearCov R u B0 B1 o0 o1 N (n + l.length) (L ++ l.map rec_) m' := by
  induction l generalizing n L m with
  | nil => exact ⟨m, rfl, by simpa using hm⟩
  | cons a l ih =>
    rw [List.length_cons] at hN
    obtain ⟨m1, e1, h1⟩ := hstep (hl a List.mem_cons_self) (by omega) hm
    obtain ⟨m2, e2, h2⟩ := ih (fun a ha => hl a (List.mem_cons_of_mem _ ha)) (by omega) h1
    refine ⟨m2, ?_, ?_⟩
    · rw [List.foldlM_cons, e1]
      exact e2
    · have q : n + 1 + l.length = n + (a :: l).length := by rw [List.length_cons]; omega
      rw [q, List.append_assoc] at h2
      exact h2

omit [LinearOrder K] [IsStrictOrderedRing K] in
theorem wtdSecond_eq (L : List (Weighted K)) (p : Second) :
    wtdSecond L p = wtdSum L (fun d => p.entry d + p.fst d * p.snd d) / wtdWeight L
      - wtdSum L p.fst / wtdWeight L * (wtdSum L p.snd / wtdWeight L) := by
  have key : ∀ a b : K, (L.map fun c => c.w * (p.entry c.m + (p.fst c.m - a) * (p.snd c.m - b))).sum
      = wtdSum L (fun d => p.entry d + p.fst d * p.snd d) - b * wtdSum L p.fst - a * wtdSum L p.snd
        + a * b * wtdWeight L := by
    intro a b
    unfold wtdSum wtdWeight
    induction L with
    | nil => simp
    | cons c L ih =>
      simp only [List.map_cons, List.sum_cons, ih]
      ring
  by_cases hL : wtdWeight L = 0
  · unfold wtdSecond
    rw [hL]
    simp
  · unfold wtdSecond
    rw [key, show wtdMean L p.fst = wtdSum L p.fst / wtdWeight L from rfl,
      show wtdMean L p.snd = wtdSum L p.snd / wtdWeight L from rfl]
    field_simp
    ring

/-- The errors after all records. -/
theorem NearCov.almost (hu : 0 ≤ u) (hB0 : 0 ≤ B0) (hB1 : 0 ≤ B1) (hn : n ≤ N) (hN : N ≤ L.length)
    (h : NearCov R u B0 B1 o0 o1 N n L m) : AlmostCov u B0 B1 o0 o1 L m := by
  have c1 : ((N : K) + 5) * u ≤ (L.length + 5) * u :=
    mul_le_mul_of_nonneg_right (by exact_mod_cast (by omega : N + 5 ≤ L.length + 5)) hu
  have c2 : (n : K) * u ≤ (L.length + 5) * u :=
    mul_le_mul_of_nonneg_right (by exact_mod_cast (by omega : n ≤ L.length + 5)) hu
  obtain ⟨A, hA⟩ := (h .cov trivial).first
  obtain ⟨D, hD⟩ := (h .cov trivial).second
  refine ⟨hA.mean.trans ?_, hD.mean.trans ?_, fun p hp hs => ?_⟩
  · show 6 * (((N : K) + 5) * u) * B0 + 10 * (n * u) * B0 ≤ _
    have := mul_le_mul_of_nonneg_right c1 hB0
    have := mul_le_mul_of_nonneg_right c2 hB0
    linarith
  · show 6 * (((N : K) + 5) * u) * B1 + 10 * (n * u) * B1 ≤ _
    have := mul_le_mul_of_nonneg_right c1 hB1
    have := mul_le_mul_of_nonneg_right c2 hB1
    linarith
  · have hb := Second.bounds hB0 hB1 p
    have hE := mul_nonneg hb.1 hb.2
    rw [wtdSecond_eq]
    refine ((h p hp).cov (by linarith)).trans ?_
    have d1 := mul_le_mul_of_nonneg_right c1 hE
    have d2 := mul_le_mul_of_nonneg_right c2 hE
    have d3 : 0 ≤ ((L.length : K) + 5) * u * (p.bound1 B0 B1 * p.bound2 B0 B1) :=
      mul_nonneg (mul_nonneg (by positivity) hu) hE
    linarith

/-! ### Resampling starts with a copy of the first record -/

theorem near_copy (h : Accurate R u) (hu1 : u < 1) {W x : K} (hW : 0 < W) (hwt : IsWeight R (R.lo W)) (hx : |x| ≤ B) :
    Near R u B 1 N n W (W * x) (W * x ^ 2) (mom3 (R.lo W) x) := by
  have hu := h.nonneg
  have hB : 0 ≤ B := (abs_nonneg _).trans hx
  obtain ⟨r, hr, er⟩ := round_fac hu1 h.lo W
  have hx2 : x ^ 2 ≤ B ^ 2 := by
    rw [← sq_abs x]
    exact pow_le_pow_left₀ (abs_nonneg _) hx 2
  refine ⟨hW.le, ?_, mul_nonneg hW.le (sq_nonneg _), ?_, ⟨hwt, le_rfl⟩, ⟨r, hr.mono ?_ hu1, er⟩, ?_, fun h => absurd rfl h⟩
  · rw [abs_mul, abs_of_pos hW, mul_comm]
    exact mul_le_mul_of_nonneg_right hx hW.le
  · have := mul_le_mul_of_nonneg_left (show x ^ 2 ≤ 2 * B ^ 2 by linarith [sq_nonneg B]) hW.le
    linarith
  · refine le_mul_of_one_le_left hu ?_
    exact_mod_cast (by omega : 1 ≤ n + 1)
  · show |x - W * x / W| ≤ _
    rw [mul_div_cancel_left₀ _ hW.ne', sub_self, abs_zero]
    exact add_nonneg (mul_nonneg (mul_nonneg (by norm_num) (mul_nonneg (by positivity) hu)) hB)
      (mul_nonneg (mul_nonneg (by norm_num) (mul_nonneg (Nat.cast_nonneg n) hu)) hB)

theorem nearPair_copy (h : Accurate R u) (hu1 : u < 1) {W x y d : K} (hW : 0 < W) (hwt : IsWeight R (R.lo W))
    (hx : |x| ≤ B) (hy : |y| ≤ C) (hd : |d| ≤ B * C) :
    NearPair R u B C N n W (W * x) (W * y) (W * (d + x * y)) (R.lo W) x y d := by
  have hu := h.nonneg
  have hB : 0 ≤ B := (abs_nonneg _).trans hx
  have hC : 0 ≤ C := (abs_nonneg _).trans hy
  refine ⟨⟨_, near_copy h hu1 hW hwt hx⟩, ⟨_, near_copy h hu1 hW hwt hy⟩, ?_, fun _ => ?_⟩
  · rw [abs_mul, abs_of_pos hW, mul_comm]
    refine mul_le_mul_of_nonneg_right ((abs_add_le _ _).trans ?_) hW.le
    have : |x * y| ≤ B * C := by
      rw [abs_mul]
      exact mul_le_mul hx hy (abs_nonneg _) hB
    linarith
  · rw [mul_div_cancel_left₀ _ hW.ne', mul_div_cancel_left₀ _ hW.ne', mul_div_cancel_left₀ _ hW.ne',
      add_sub_cancel_right, sub_self, abs_zero]
    have hE := mul_nonneg hB hC
    exact add_nonneg (mul_nonneg (mul_nonneg (by norm_num) (mul_nonneg (by positivity) hu)) hE)
      (mul_nonneg (mul_nonneg (by norm_num) (mul_nonneg (Nat.cast_nonneg n) hu)) hE)

theorem NearCov.resampleDataRow (h : Accurate R u) (h0 : 1 ≤ o0) (h1 : 1 ≤ o1) (hB0 : 0 ≤ B0) (hB1 : 0 ≤ B1)
    (hsm : 16 * ((N + 5) * u) ≤ 1) {l : List (K × Com K)}
    (hl : ∀ p ∈ l, 0 ≤ p.1 ∧ OkCov B0 B1 o0 o1 p.2 ∧ IsWeight R (p.2 0 0) ∧ p.2 0 0 ≠ 0) (hN : n + l.length ≤ N)
    (hL : ∀ a ∈ L, a.w = 0) (hm : NearCov R u B0 B1 o0 o1 N n L (fun _ _ => 0)) :
    ∃ m, (R.kernel2 o0 o1).resampleDataRow l = some m ∧
      NearCov R u B0 B1 o0 o1 N (n + l.length) (L ++ l.map fun p => ⟨p.2 0 0 * p.1, p.2⟩) m := by
  have hu1 := h.small hsm
  induction l generalizing n L with
  | nil => exact ⟨fun _ _ => 0, rfl, by simpa using hm⟩
  | cons p l ih =>
    rw [List.length_cons] at hN
    obtain ⟨hp1, hp2, hp3, hp4⟩ := hl p List.mem_cons_self
    have hl' := fun q hq => hl q (List.mem_cons_of_mem p hq)
    have q : n + 1 + l.length = n + (p :: l).length := by rw [List.length_cons]; omega
    by_cases hz : p.1 = 0
    · obtain ⟨m, e, hm⟩ := ih hl' (n := n + 1) (L := L ++ [⟨p.2 0 0 * p.1, p.2⟩]) (by omega) (by
        intro a ha
        rcases List.mem_append.1 ha with ha | ha
        · exact hL a ha
        · rw [List.mem_singleton.1 ha]
          show p.2 0 0 * p.1 = 0
          rw [hz, mul_zero]) (by
        have := hm.skip h hB0 hB1 (by omega) hsm p.2
        rwa [hz, mul_zero])
      refine ⟨m, ?_, ?_⟩
      · rw [← e]
        show (R.kernel2 o0 o1).resampleDataRow ((p.1, p.2) :: l) = _
        conv_lhs => unfold Kernel.resampleDataRow
        rw [if_neg (by simpa using hz)]
      · rw [q, List.append_assoc] at hm
        exact hm
    · have hpos : 0 < p.2 0 0 * p.1 :=
        mul_pos (lt_of_le_of_ne hp3.2 (Ne.symm hp4)) (lt_of_le_of_ne hp1 (Ne.symm hz))
      have hsum : ∀ f, wtdSum L f = 0 := fun f => List.sum_eq_zero fun x hx => by
        obtain ⟨a, ha, rfl⟩ := List.mem_map.1 hx
        rw [hL a ha, zero_mul]
      have hwgt : wtdWeight L = 0 := List.sum_eq_zero fun x hx => by
        obtain ⟨a, ha, rfl⟩ := List.mem_map.1 hx
        exact hL a ha
      have hfirst : NearCov R u B0 B1 o0 o1 N (n + 1) (L ++ [⟨p.2 0 0 * p.1, p.2⟩])
          ((R.kernel2 o0 o1).mulWeight p.2 p.1) := by
        intro t ht
        have hq := Second.means hp2.mean0 hp2.mean1 t
        have := nearPair_copy (N := N) (n := n + 1) h hu1 hpos (h.precision.weight_mul hp3.2 hp1) hq.1 hq.2
          (hp2.second t ht)
        simp only [wtdSum_snoc, wtdWeight_snoc, hsum, hwgt, zero_add]
        cases t <;> exact this
      obtain ⟨m, e, hm⟩ := NearCov.foldlM (N := N) (n := n + 1)
        (fun o (p : K × Com K) => if p.1 ≠ 0 then (R.kernel2 o0 o1).pushScale p.2 p.1 o else some o)
        (fun p => ⟨p.2 0 0 * p.1, p.2⟩) (fun p => 0 ≤ p.1 ∧ OkCov B0 B1 o0 o1 p.2 ∧ IsWeight R (p.2 0 0))
        (fun {n L m a} ha hn hm => by
          by_cases hz : a.1 = 0
          · refine ⟨m, if_neg (by simpa using hz), ?_⟩
            have := hm.skip h hB0 hB1 hn hsm a.2
            rwa [hz, mul_zero]
          · obtain ⟨m', e, h'⟩ := hm.pushData h h0 h1 hn hsm (mul_nonneg ha.2.2.2 ha.1) ha.2.1
              (h.precision.weight_mul ha.2.2.2 ha.1) (round_fac hu1 h.lo _)
            exact ⟨m', (if_pos hz).trans e, h'⟩)
        (l := l) (fun q hq => ⟨(hl' q hq).1, (hl' q hq).2.1, (hl' q hq).2.2.1⟩) (by omega) hfirst
      refine ⟨m, ?_, ?_⟩
      · rw [← e]
        show (R.kernel2 o0 o1).resampleDataRow ((p.1, p.2) :: l) = _
        unfold Kernel.resampleDataRow
        rw [if_pos hz]
        rfl
      · rw [q, List.append_assoc] at hm
        exact hm

end Cmomy
