import Verif.Lemmas.RoundingError
import Verif.Spec.RoundingMerge
import Verif.Lemmas.Tree
import Mathlib.Tactic.FieldSimp
import Mathlib.Tactic.LinearCombination

/-!
# Merging records in rounded arithmetic

A push is an exact merge of the numbers at hand, up to a few roundings. The average and the mean square of the result are
therefore weighted averages of those of the parts, with the weights as computed, so that errors are averaged and only those
of the push are added.
-/

namespace Cmomy

open Spec

variable {K : Type*} [Field K] [LinearOrder K] [IsStrictOrderedRing K] {R : Precision K} {u B : K} {order n : ℕ}

/-- The errors of one push, compared with the exact merge of the numbers pushed. -/
theorem push_local (h : Accurate R u) (hu1 : 64 * u ≤ 1) {o0 w o1 x o2 d : K} (ho0 : IsWeight R o0) (hw : IsWeight R w)
    (hne : w ≠ 0) (ho1 : |o1| ≤ B) (hx : |x| ≤ B) :
    |R.lo (o1 + R.lo (R.lo (x - o1) * R.lo (w / R.lo (o0 + w)))) - (o1 + (x - o1) * (w / (o0 + w)))| ≤ 46 * u * B ∧
    (0 ≤ o2 → o2 ≤ 3 * B ^ 2 → 0 ≤ d → d ≤ B ^ 2 →
      |R.lo (R.hi (R.lo (d * R.lo (w / R.lo (o0 + w)))
        + R.hi (R.hi (1 - R.lo (w / R.lo (o0 + w)))
          * R.lo (o2 + R.lo (R.lo (x - o1) * R.lo (R.lo (x - o1) * R.lo (w / R.lo (o0 + w))))))))
        - (d * (w / (o0 + w)) + (1 - w / (o0 + w)) * (o2 + (x - o1) ^ 2 * (w / (o0 + w))))| ≤ 858 * u * B ^ 2) := by
  have hu := h.nonneg
  have hpos : 0 < w := lt_of_le_of_ne hw.2 (Ne.symm hne)
  have hS : 0 < o0 + w := by linarith [ho0.2]
  obtain ⟨-, -, -, -, q5, q6, -, -⟩ := h.precision.push_numbers ho0 hw hne
  obtain ⟨rW, ra, ρ, f, g1, g2, g3, k1, k2, k3, k4, k5, k6, k7, j1, j2, j3, j4⟩ :=
    push_factors (n := 0) (S0 := o0) (w := w) (w' := w) (rw_ := 1) (r0 := 1) (o0 := o0) (o1 := o1) (o2 := o2) (x := x)
      (d := d) h (by push_cast; linarith) ho0.2 hpos (Fac.one (by push_cast; linarith)) (by ring)
      (Fac.one (by push_cast; linarith)) (by ring)
  push_cast at k2 k3 k4 k5 k6 k7
  rw [j2] at q5 q6
  rw [j3, j4]
  clear j1 j2 j3 j4
  have ha0 : 0 ≤ w / (o0 + w) := div_nonneg hpos.le hS.le
  have ha1 : w / (o0 + w) ≤ 1 := (div_le_one hS).2 (by linarith [ho0.2])
  generalize w / (o0 + w) = a at *
  have hB : 0 ≤ B := (abs_nonneg _).trans hx
  have hB2 := sq_nonneg B
  constructor
  · refine (mean_step (e := 0) (s := 6 * u) (u := u) ha0 ha1 hx ho1 (by simp) hB (by linarith) (by linarith)
      ((k3.err (by linarith)).trans (by linarith)) ((k4.err (by linarith)).trans (by linarith))).trans ?_
    have := mul_le_mul_of_nonneg_right ha1 (mul_nonneg (mul_nonneg (by norm_num : (0 : K) ≤ 36) hu) hB)
    linarith
  · intro h2 h2' hd hd'
    refine (var_step (T := 4 * u) (u := u) (ev := 0) ha0 ha1 hx ho1 (by linarith) (by linarith)
      (by simp only [sub_self, abs_zero]; exact mul_nonneg (by linarith) hB) hd hd' h2 h2' (by simp)
      ((k2.err (by linarith)).trans (by linarith)) q6 q5 ((k5.err (by linarith)).trans (by linarith))
      ((k6.err (by linarith)).trans (by linarith)) ((k7.err (by linarith)).trans (by linarith))
      (k7.pos (by linarith)).le (k7.le_two (by linarith))).trans ?_
    have := mul_le_mul_of_nonneg_right ha1 (mul_nonneg (mul_nonneg (by norm_num : (0 : K) ≤ 648) hu) hB2)
    linarith

/-- The moments `m` are close to those of records with the sums `S0` of weights, `S1` of weighted averages and `S2` of
weighted squares, after `n` roundings of each kind. The sums `P1` and `P2` are with the weights as computed. -/
structure Merged (R : Precision K) (u B : K) (order n : ℕ) (S0 S1 S2 P1 P2 : K) (m : Mom K) : Prop where
  sound : Sound R m
  pos : 0 ≤ S0
  sum1 : |S1| ≤ B * S0
  sum2 : |S2| ≤ B ^ 2 * S0
  comp1 : |P1| ≤ B * m 0
  comp2 : |P2| ≤ B ^ 2 * m 0
  weight : |m 0 - S0| ≤ 4 * (n * u) * S0
  diff1 : |P1 - S1| ≤ 4 * (n * u) * (B * S0)
  diff2 : |P2 - S2| ≤ 4 * (n * u) * (B ^ 2 * S0)
  mean : |m 0 * m 1 - P1| ≤ 58 * (n * u) * B * m 0
  square : order ≠ 1 → |m 0 * (m 2 + m 1 ^ 2) - P2| ≤ 1563 * (n * u) * B ^ 2 * m 0
  small1 : |m 1| ≤ 5 / 4 * B
  small2 : order ≠ 1 → m 2 + m 1 ^ 2 ≤ 25 / 16 * B ^ 2

variable {S0 S1 S2 P1 P2 : K} {m : Mom K}

theorem Merged.mono (h : Merged R u B order n S0 S1 S2 P1 P2 m) (hu : 0 ≤ u) (hB : 0 ≤ B) {k : ℕ} (hk : n ≤ k) :
    Merged R u B order k S0 S1 S2 P1 P2 m := by
  have c : (n : K) * u ≤ k * u := mul_le_mul_of_nonneg_right (by exact_mod_cast hk) hu
  have hB2 := sq_nonneg B
  have hw := h.sound.weight.2
  refine ⟨h.sound, h.pos, h.sum1, h.sum2, h.comp1, h.comp2, h.weight.trans ?_, h.diff1.trans ?_, h.diff2.trans ?_,
    h.mean.trans ?_, fun ho => (h.square ho).trans ?_, h.small1, h.small2⟩
  · have := mul_le_mul_of_nonneg_right c h.pos
    linarith
  · have := mul_le_mul_of_nonneg_right c (mul_nonneg hB h.pos)
    linarith
  · have := mul_le_mul_of_nonneg_right c (mul_nonneg hB2 h.pos)
    linarith
  · have := mul_le_mul_of_nonneg_right c (mul_nonneg hB hw)
    linarith
  · have := mul_le_mul_of_nonneg_right c (mul_nonneg hB2 hw)
    linarith

/-- A record as it is. -/
theorem Merged.record (hB : 0 ≤ B) (h : Bounded R B m) :
    Merged R u B order 0 (m 0) (m 0 * m 1) (m 0 * (m 2 + m 1 ^ 2)) (m 0 * m 1) (m 0 * (m 2 + m 1 ^ 2)) m := by
  have hw := h.weight.2
  have hv := h.var
  have hs := h.square
  have hB2 := sq_nonneg B
  have h1 : |m 1| ≤ B := abs_le_of_sq_le_sq (by linarith) hB
  have h0 : 0 ≤ m 2 + m 1 ^ 2 := add_nonneg hv (sq_nonneg _)
  have a1 : |m 0 * m 1| ≤ B * m 0 := by
    rw [abs_mul, abs_of_nonneg hw, mul_comm]
    exact mul_le_mul_of_nonneg_right h1 hw
  have a2 : |m 0 * (m 2 + m 1 ^ 2)| ≤ B ^ 2 * m 0 := by
    rw [abs_of_nonneg (mul_nonneg hw h0), mul_comm]
    exact mul_le_mul_of_nonneg_right hs hw
  exact ⟨⟨h.weight, hv⟩, hw, a1, a2, a1, a2, by simp, by simp, by simp, by simp, by simp, by linarith,
    fun _ => by linarith⟩

/-- Nothing. -/
theorem Merged.zero (h : Accurate R u) (hB : 0 ≤ B) (order : ℕ) :
    Merged R u B order 0 0 0 0 0 0 (fun _ => 0) := by
  refine ⟨⟨h.precision.weight_zero, le_rfl⟩, le_rfl, ?_, ?_, ?_, ?_, ?_, ?_, ?_, ?_, fun _ => ?_, ?_, fun _ => ?_⟩ <;>
    simp <;> positivity

/-- The sum of two sums with computed weights, rounded. -/
theorem sum_step {T T' P P' f C N W : K} (hf : |f - 1| ≤ 2 * u) (hu : 0 ≤ u) (hP : |P + P'| ≤ C * W) (hC : 0 ≤ C)
    (hW : W ≤ 2 * N) (h : |P - T + (P' - T')| ≤ 4 * (n * u) * (C * N)) :
    |(P + P') * f - (T + T')| ≤ 4 * ((n + 1 : ℕ) * u) * (C * N) := by
  have e : (P + P') * f - (T + T') = (P - T + (P' - T')) + (f - 1) * (P + P') := by ring
  have h1 : |(f - 1) * (P + P')| ≤ 2 * u * (C * (2 * N)) := by
    rw [abs_mul]
    exact mul_le_mul hf (hP.trans (mul_le_mul_of_nonneg_left hW hC)) (abs_nonneg _) (by linarith)
  rw [e]
  have := abs_add_le (P - T + (P' - T')) ((f - 1) * (P + P'))
  push_cast
  linarith

/-- One record pushed into another one. -/
theorem Merged.push (h : Accurate R u) (hB : 0 ≤ B) (hsm : 2800 * ((n + 1 : ℕ) * u) ≤ 1) {T0 T1 T2 Q1 Q2 : K} {d : Mom K}
    (hd : Merged R u B order n T0 T1 T2 Q1 Q2 d) (hm : Merged R u B order n S0 S1 S2 P1 P2 m) :
    ∃ m' P1' P2', R.pushDataBody order (d 0) d m = some m' ∧
      Merged R u B order (n + 1) (S0 + T0) (S1 + T1) (S2 + T2) P1' P2' m' := by
  have hu := h.nonneg
  have hB2 := sq_nonneg B
  have hnu : 0 ≤ (n : K) * u := mul_nonneg (Nat.cast_nonneg n) hu
  have en : ((n + 1 : ℕ) : K) * u = n * u + u := by push_cast; ring
  rw [en] at hsm
  have hw0 := hm.sound.weight.2
  have hd0 := hd.sound.weight.2
  by_cases hz : d 0 = 0
  · refine ⟨m, P1, P2, by unfold Precision.pushDataBody; rw [if_pos hz], ?_⟩
    have z0 : T0 = 0 := by
      have := hd.weight
      rw [hz, zero_sub, abs_neg, abs_of_nonneg hd.pos] at this
      have h1 : 4 * (n * u) * T0 ≤ 1 / 2 * T0 := mul_le_mul_of_nonneg_right (by linarith) hd.pos
      linarith [hd.pos]
    have z1 : T1 = 0 := by
      have := hd.sum1
      rw [z0, mul_zero] at this
      exact abs_eq_zero.1 (le_antisymm this (abs_nonneg _))
    have z2 : T2 = 0 := by
      have := hd.sum2
      rw [z0, mul_zero] at this
      exact abs_eq_zero.1 (le_antisymm this (abs_nonneg _))
    rw [z0, z1, z2, add_zero, add_zero, add_zero]
    exact hm.mono hu hB n.le_succ
  obtain ⟨m', e, hs, -⟩ := Precision.pushDataBody_sound h.precision order hd.sound.weight hd.sound.var hm.sound
  obtain ⟨-, -, -, h4, -⟩ := h.precision.push_numbers hm.sound.weight hd.sound.weight hz
  obtain ⟨m'', e', e0, e1, -, e3⟩ := Precision.pushDataBody_cases order (d 0) d m hz h4.ne'
  rw [e] at e'
  obtain rfl := Option.some.inj e'
  obtain ⟨f, hf, ef⟩ := round_fac (by linarith : u < 1) h.lo (m 0 + d 0)
  have hB' : 0 ≤ 5 / 4 * B := by linarith
  have hfe := hf.err (by linarith)
  have hfp := hf.pos (by linarith)
  have hW : 0 < m 0 + d 0 := by
    have := lt_of_le_of_ne hd0 (Ne.symm hz)
    linarith
  obtain ⟨l1, l2⟩ := push_local (B := 5 / 4 * B) (o2 := m 2) (d := d 2) h (by linarith) hm.sound.weight hd.sound.weight hz
    hm.small1 hd.small1
  rw [← e1] at l1
  have e0' : m' 0 = (m 0 + d 0) * f := by rw [e0, ef]
  have hW' : 0 < m' 0 := by rw [e0']; exact mul_pos hW hfp
  set M1 := m 1 + (d 1 - m 1) * (d 0 / (m 0 + d 0)) with hM1
  have eM1 : (m 0 + d 0) * M1 = m 0 * m 1 + d 0 * d 1 := by
    rw [hM1]
    field_simp
    ring
  -- weights and sums
  have c0 : m 0 + d 0 ≤ 2 * (S0 + T0) := by
    have a1 := (abs_le.1 hm.weight).2
    have a2 := (abs_le.1 hd.weight).2
    have a3 : 4 * (n * u) * S0 ≤ 1 * S0 := mul_le_mul_of_nonneg_right (by linarith) hm.pos
    have a4 : 4 * (n * u) * T0 ≤ 1 * T0 := mul_le_mul_of_nonneg_right (by linarith) hd.pos
    linarith
  have hsum1 : |P1 + Q1| ≤ B * (m 0 + d 0) := by
    have := abs_add_le P1 Q1
    linarith [hm.comp1, hd.comp1]
  have hsum2 : |P2 + Q2| ≤ B ^ 2 * (m 0 + d 0) := by
    have := abs_add_le P2 Q2
    linarith [hm.comp2, hd.comp2]
  have mean' : |m' 0 * m' 1 - (P1 + Q1) * f| ≤ 58 * ((n + 1 : ℕ) * u) * B * m' 0 := by
    have e5 : m' 0 * m' 1 - (P1 + Q1) * f
        = f * ((m 0 * m 1 - P1) + (d 0 * d 1 - Q1) + (m 0 + d 0) * (m' 1 - M1)) := by
      rw [e0']
      linear_combination f * eM1
    have b1 := abs_add_le (m 0 * m 1 - P1 + (d 0 * d 1 - Q1)) ((m 0 + d 0) * (m' 1 - M1))
    have b2 := abs_add_le (m 0 * m 1 - P1) (d 0 * d 1 - Q1)
    have b3 : |(m 0 + d 0) * (m' 1 - M1)| ≤ (m 0 + d 0) * (46 * u * (5 / 4 * B)) := by
      rw [abs_mul, abs_of_pos hW]
      exact mul_le_mul_of_nonneg_left l1 hW.le
    have b4 : 0 ≤ u * B * (m 0 + d 0) := mul_nonneg (mul_nonneg hu hB) hW.le
    rw [e5, abs_mul, abs_of_pos hfp, e0', en]
    have b5 : |m 0 * m 1 - P1 + (d 0 * d 1 - Q1) + (m 0 + d 0) * (m' 1 - M1)|
        ≤ 58 * (n * u + u) * B * (m 0 + d 0) := by
      linarith [hm.mean, hd.mean]
    have := mul_le_mul_of_nonneg_left b5 hfp.le
    linarith
  have sq' : order ≠ 1 →
      |m' 0 * (m' 2 + m' 1 ^ 2) - (P2 + Q2) * f| ≤ 1563 * ((n + 1 : ℕ) * u) * B ^ 2 * m' 0 := by
    intro ho
    have s1 := hm.small2 ho
    have s2 := hd.small2 ho
    have t1 := sq_nonneg (m 1)
    have t2 := sq_nonneg (d 1)
    have l2' := l2 hm.sound.var (by linarith) hd.sound.var (by linarith)
    rw [← e3 ho] at l2'
    set V1 := d 2 * (d 0 / (m 0 + d 0))
      + (1 - d 0 / (m 0 + d 0)) * (m 2 + (d 1 - m 1) ^ 2 * (d 0 / (m 0 + d 0))) with hV1
    have eV1 : (m 0 + d 0) * (V1 + M1 ^ 2) = m 0 * (m 2 + m 1 ^ 2) + d 0 * (d 2 + d 1 ^ 2) := by
      rw [hV1, hM1]
      field_simp
      ring
    have hM1b : |M1| ≤ 5 / 4 * B := by
      have a1 : |(m 0 + d 0) * M1| ≤ (m 0 + d 0) * (5 / 4 * B) := by
        rw [eM1]
        have b1 := abs_add_le (m 0 * m 1) (d 0 * d 1)
        rw [abs_mul, abs_mul, abs_of_nonneg hw0, abs_of_nonneg hd0] at b1
        have b2 := mul_le_mul_of_nonneg_left hm.small1 hw0
        have b3 := mul_le_mul_of_nonneg_left hd.small1 hd0
        linarith
      rw [abs_mul, abs_of_pos hW] at a1
      exact le_of_mul_le_mul_left a1 hW
    have hm1 : |m' 1 + M1| ≤ 3 * (5 / 4 * B) := by
      have a1 : m' 1 + M1 = (m' 1 - M1) + 2 * M1 := by ring
      have a2 := abs_add_le (m' 1 - M1) (2 * M1)
      rw [abs_mul, abs_two] at a2
      have a3 : 46 * u * (5 / 4 * B) ≤ 1 * (5 / 4 * B) := mul_le_mul_of_nonneg_right (by linarith) hB'
      rw [a1]
      linarith
    have hsq : |m' 1 ^ 2 - M1 ^ 2| ≤ 138 * u * (5 / 4 * B) ^ 2 := by
      have a1 : m' 1 ^ 2 - M1 ^ 2 = (m' 1 - M1) * (m' 1 + M1) := by ring
      rw [a1, abs_mul]
      calc _ ≤ 46 * u * (5 / 4 * B) * (3 * (5 / 4 * B)) :=
            mul_le_mul l1 hm1 (abs_nonneg _) ((abs_nonneg _).trans l1)
        _ = _ := by ring
    have e5 : m' 0 * (m' 2 + m' 1 ^ 2) - (P2 + Q2) * f
        = f * ((m 0 * (m 2 + m 1 ^ 2) - P2) + (d 0 * (d 2 + d 1 ^ 2) - Q2)
          + (m 0 + d 0) * ((m' 2 - V1) + (m' 1 ^ 2 - M1 ^ 2))) := by
      rw [e0']
      linear_combination f * eV1
    have b1 := abs_add_le (m 0 * (m 2 + m 1 ^ 2) - P2 + (d 0 * (d 2 + d 1 ^ 2) - Q2))
      ((m 0 + d 0) * ((m' 2 - V1) + (m' 1 ^ 2 - M1 ^ 2)))
    have b2 := abs_add_le (m 0 * (m 2 + m 1 ^ 2) - P2) (d 0 * (d 2 + d 1 ^ 2) - Q2)
    have b3 : |(m 0 + d 0) * ((m' 2 - V1) + (m' 1 ^ 2 - M1 ^ 2))| ≤ (m 0 + d 0) * (996 * u * (5 / 4 * B) ^ 2) := by
      rw [abs_mul, abs_of_pos hW]
      refine mul_le_mul_of_nonneg_left ?_ hW.le
      have := abs_add_le (m' 2 - V1) (m' 1 ^ 2 - M1 ^ 2)
      linarith
    have b4 : 0 ≤ u * B ^ 2 * (m 0 + d 0) := mul_nonneg (mul_nonneg hu hB2) hW.le
    rw [e5, abs_mul, abs_of_pos hfp, e0', en]
    have b5 : |m 0 * (m 2 + m 1 ^ 2) - P2 + (d 0 * (d 2 + d 1 ^ 2) - Q2)
        + (m 0 + d 0) * ((m' 2 - V1) + (m' 1 ^ 2 - M1 ^ 2))| ≤ 1563 * (n * u + u) * B ^ 2 * (m 0 + d 0) := by
      have b6 : (5 / 4 * B) ^ 2 = 25 / 16 * B ^ 2 := by ring
      rw [b6] at b3
      linarith [hm.square ho, hd.square ho]
    have := mul_le_mul_of_nonneg_left b5 hfp.le
    linarith
  have comp1' : |(P1 + Q1) * f| ≤ B * m' 0 := by
    rw [abs_mul, abs_of_pos hfp, e0', ← mul_assoc]
    exact mul_le_mul_of_nonneg_right hsum1 hfp.le
  have comp2' : |(P2 + Q2) * f| ≤ B ^ 2 * m' 0 := by
    rw [abs_mul, abs_of_pos hfp, e0', ← mul_assoc]
    exact mul_le_mul_of_nonneg_right hsum2 hfp.le
  refine ⟨m', (P1 + Q1) * f, (P2 + Q2) * f, e, hs, add_nonneg hm.pos hd.pos, ?_, ?_, comp1', comp2', ?_, ?_, ?_, mean',
    sq', ?_, fun ho => ?_⟩
  · have := abs_add_le S1 T1
    linarith [hm.sum1, hd.sum1]
  · have := abs_add_le S2 T2
    linarith [hm.sum2, hd.sum2]
  · rw [e0']
    have := sum_step (n := n) (u := u) (T := S0) (T' := T0) (P := m 0) (P' := d 0) (f := f) (C := 1) (N := S0 + T0)
      (W := m 0 + d 0) hfe hu (by rw [abs_of_pos hW, one_mul]) zero_le_one c0 (by
        have := abs_add_le (m 0 - S0) (d 0 - T0)
        linarith [hm.weight, hd.weight])
    rwa [one_mul] at this
  · exact sum_step hfe hu hsum1 hB c0 (by
      have := abs_add_le (P1 - S1) (Q1 - T1)
      linarith [hm.diff1, hd.diff1])
  · exact sum_step hfe hu hsum2 hB2 c0 (by
      have := abs_add_le (P2 - S2) (Q2 - T2)
      linarith [hm.diff2, hd.diff2])
  · have a1 : |m' 0 * m' 1| ≤ m' 0 * (5 / 4 * B) := by
      have b1 := abs_add_le (m' 0 * m' 1 - (P1 + Q1) * f) ((P1 + Q1) * f)
      rw [sub_add_cancel] at b1
      have b2 : 58 * ((n + 1 : ℕ) * u) * B * m' 0 ≤ 1 / 4 * (B * m' 0) := by
        rw [en]
        have := mul_le_mul_of_nonneg_right (show 58 * (n * u + u) ≤ 1 / 4 by linarith) (mul_nonneg hB hW'.le)
        linarith
      linarith
    rw [abs_mul, abs_of_pos hW'] at a1
    exact le_of_mul_le_mul_left a1 hW'
  · have a1 : m' 0 * (m' 2 + m' 1 ^ 2) ≤ m' 0 * (25 / 16 * B ^ 2) := by
      have b1 := (abs_le.1 (sq' ho)).2
      have b3 := (abs_le.1 comp2').2
      have b2 : 1563 * ((n + 1 : ℕ) * u) * B ^ 2 * m' 0 ≤ 9 / 16 * (B ^ 2 * m' 0) := by
        rw [en]
        have := mul_le_mul_of_nonneg_right (show 1563 * (n * u + u) ≤ 9 / 16 by linarith) (mul_nonneg hB2 hW'.le)
        linarith
      linarith
    exact le_of_mul_le_mul_left a1 hW'

/-- The quotient of two sums and that of two other ones nearby. -/
theorem quotient_near {a b c d C t : K} (hb : 0 < b) (hd : 0 < d) (hdb : d ≤ 2 * b) (ht : 0 ≤ t) (hC : 0 ≤ C)
    (h1 : |a - c| ≤ t * (C * d)) (h2 : |b - d| ≤ t * d) (hc : |c| ≤ C * d) : |a / b - c / d| ≤ 4 * t * C := by
  have e : a / b - c / d = ((a - c) - c / d * (b - d)) / b := by
    field_simp
    ring
  have h3 : |c / d| ≤ C := by
    rw [abs_div, abs_of_pos hd, div_le_iff₀ hd]
    exact hc
  have h4 : |c / d * (b - d)| ≤ C * (t * d) := by
    rw [abs_mul]
    exact mul_le_mul h3 h2 (abs_nonneg _) hC
  have h5 := abs_sub (a - c) (c / d * (b - d))
  rw [e, abs_div, abs_of_pos hb, div_le_iff₀ hb]
  have h6 : t * C * d ≤ t * C * (2 * b) := mul_le_mul_of_nonneg_left hdb (mul_nonneg ht hC)
  linarith

/-- The errors of what has been merged. -/
theorem Merged.errors {L : List (Record K)} (hu : 0 ≤ u) (hB : 0 ≤ B) (hsm : 2800 * (n * u) ≤ 1)
    (h : Merged R u B order n (recWeight L) (recSum1 L) (recSum2 L) P1 P2 m) : MergeOf u B order n L m := by
  have hnu : 0 ≤ (n : K) * u := mul_nonneg (Nat.cast_nonneg n) hu
  have hB2 := sq_nonneg B
  have key : recWeight L ≠ 0 → 0 < recWeight L ∧ 0 < m 0 ∧ recWeight L ≤ 2 * m 0 := by
    intro hne
    have h1 := lt_of_le_of_ne h.pos (Ne.symm hne)
    have h2 := (abs_le.1 h.weight).1
    have h3 : 4 * (n * u) * recWeight L ≤ 1 / 2 * recWeight L := mul_le_mul_of_nonneg_right (by linarith) h1.le
    exact ⟨h1, by linarith, by linarith⟩
  have hmean : recWeight L ≠ 0 → |m 1 - P1 / m 0| ≤ 58 * (n * u) * B ∧
      |P1 / m 0 - recMean L| ≤ 16 * (n * u) * B := by
    intro hne
    obtain ⟨h1, h2, h3⟩ := key hne
    constructor
    · have e : m 1 - P1 / m 0 = (m 0 * m 1 - P1) / m 0 := by field_simp
      rw [e, abs_div, abs_of_pos h2, div_le_iff₀ h2]
      exact h.mean
    · have := quotient_near (t := 4 * (n * u)) h2 h1 h3 (by linarith) hB h.diff1 h.weight h.sum1
      show |P1 / m 0 - recSum1 L / recWeight L| ≤ _
      linarith
  refine ⟨h.weight, fun hne => ?_, fun hne ho => ?_⟩
  · obtain ⟨a1, a2⟩ := hmean hne
    have := abs_add_le (m 1 - P1 / m 0) (P1 / m 0 - recMean L)
    rw [sub_add_sub_cancel] at this
    have := mul_nonneg hnu hB
    linarith
  · obtain ⟨a1, a2⟩ := hmean hne
    obtain ⟨h1, h2, h3⟩ := key hne
    have a3 : |m 1 - recMean L| ≤ 74 * (n * u) * B := by
      have := abs_add_le (m 1 - P1 / m 0) (P1 / m 0 - recMean L)
      rw [sub_add_sub_cancel] at this
      linarith
    have b1 : |m 2 + m 1 ^ 2 - P2 / m 0| ≤ 1563 * (n * u) * B ^ 2 := by
      have e : m 2 + m 1 ^ 2 - P2 / m 0 = (m 0 * (m 2 + m 1 ^ 2) - P2) / m 0 := by field_simp
      rw [e, abs_div, abs_of_pos h2, div_le_iff₀ h2]
      exact h.square ho
    have b2 : |P2 / m 0 - recSum2 L / recWeight L| ≤ 16 * (n * u) * B ^ 2 := by
      have := quotient_near (t := 4 * (n * u)) h2 h1 h3 (by linarith) hB2 h.diff2 h.weight h.sum2
      linarith
    have hμ : |recMean L| ≤ B := by
      show |recSum1 L / recWeight L| ≤ B
      rw [abs_div, abs_of_pos h1, div_le_iff₀ h1]
      exact h.sum1
    have b3 : |m 1 ^ 2 - recMean L ^ 2| ≤ 74 * (n * u) * B * (9 / 4 * B) := by
      have e : m 1 ^ 2 - recMean L ^ 2 = (m 1 - recMean L) * (m 1 + recMean L) := by ring
      rw [e, abs_mul]
      refine mul_le_mul a3 ?_ (abs_nonneg _) ((abs_nonneg _).trans a3)
      have := abs_add_le (m 1) (recMean L)
      linarith [h.small1]
    have e : m 2 - recVar L = (m 2 + m 1 ^ 2 - P2 / m 0) + (P2 / m 0 - recSum2 L / recWeight L)
        - (m 1 ^ 2 - recMean L ^ 2) := by
      rw [recVar_eq hne]
      show _ = _ - (m 1 ^ 2 - (recSum1 L / recWeight L) ^ 2)
      ring
    rw [e]
    have c1 := abs_sub ((m 2 + m 1 ^ 2 - P2 / m 0) + (P2 / m 0 - recSum2 L / recWeight L)) (m 1 ^ 2 - recMean L ^ 2)
    have c2 := abs_add_le (m 2 + m 1 ^ 2 - P2 / m 0) (P2 / m 0 - recSum2 L / recWeight L)
    have c3 : 0 ≤ n * u * B ^ 2 := mul_nonneg hnu hB2
    have c4 : 74 * (n * u) * B * (9 / 4 * B) = 333 / 2 * (n * u * B ^ 2) := by ring
    linarith

omit [LinearOrder K] [IsStrictOrderedRing K] in
theorem recSums_append (L M : List (Record K)) : recWeight (L ++ M) = recWeight L + recWeight M ∧
    recSum1 (L ++ M) = recSum1 L + recSum1 M ∧ recSum2 (L ++ M) = recSum2 L + recSum2 M := by
  simp [recWeight, recSum1, recSum2]

/-- What has been merged comes from the records listed. -/
def MergedFrom (R : Precision K) (u B : K) (order n : ℕ) (L : List (Record K)) (m : Mom K) : Prop :=
  ∃ P1 P2, Merged R u B order n (recWeight L) (recSum1 L) (recSum2 L) P1 P2 m

variable {L L' : List (Record K)}

theorem MergedFrom.mono (h : MergedFrom R u B order n L m) (hu : 0 ≤ u) (hB : 0 ≤ B) {k : ℕ}
    (hk : n ≤ k) : MergedFrom R u B order k L m := by
  obtain ⟨P1, P2, h⟩ := h
  exact ⟨P1, P2, h.mono hu hB hk⟩

theorem MergedFrom.zero (h : Accurate R u) (hB : 0 ≤ B) (order : ℕ) : MergedFrom R u B order 0 [] (fun _ => 0) :=
  ⟨0, 0, by simpa [recWeight, recSum1, recSum2] using Merged.zero h hB order⟩

theorem MergedFrom.record (hB : 0 ≤ B) (h : Bounded R B m) : MergedFrom R u B order 0 [recordOf m] m := by
  refine ⟨m 0 * m 1, m 0 * (m 2 + m 1 ^ 2), ?_⟩
  have := Merged.record (u := u) (order := order) hB h
  simpa [recWeight, recSum1, recSum2, recordOf] using this

theorem MergedFrom.push (h : Accurate R u) (hB : 0 ≤ B) (hsm : 2800 * ((n + 1 : ℕ) * u) ≤ 1)
    {d : Mom K} (hd : MergedFrom R u B order n L' d) (hm : MergedFrom R u B order n L m) :
    ∃ m', (R.kernel1 order).pushData d m = some m' ∧ MergedFrom R u B order (n + 1) (L ++ L') m' := by
  obtain ⟨P1, P2, hm⟩ := hm
  obtain ⟨Q1, Q2, hd⟩ := hd
  obtain ⟨m', P1', P2', e, h'⟩ := Merged.push h hB hsm hd hm
  refine ⟨m', e, P1', P2', ?_⟩
  obtain ⟨e0, e1, e2⟩ := recSums_append L L'
  rw [e0, e1, e2]
  exact h'

omit [LinearOrder K] [IsStrictOrderedRing K] in
/-- The order of the records does not matter. -/
theorem recSums_perm (h : L.Perm L') :
    recWeight L = recWeight L' ∧ recSum1 L = recSum1 L' ∧ recSum2 L = recSum2 L' :=
  ⟨(h.map _).sum_eq, (h.map _).sum_eq, (h.map _).sum_eq⟩

omit [IsStrictOrderedRing K] in
theorem MergedFrom.perm (h : MergedFrom R u B order n L m) (hp : L.Perm L') : MergedFrom R u B order n L' m := by
  obtain ⟨P1, P2, h⟩ := h
  obtain ⟨e0, e1, e2⟩ := recSums_perm hp
  exact ⟨P1, P2, by rw [← e0, ← e1, ← e2]; exact h⟩

omit [IsStrictOrderedRing K] in
/-- Only weight, average and variance matter. -/
theorem MergedFrom.congr {m' : Mom K} (h : MergedFrom R u B order n L m) (h0 : m' 0 = m 0) (h1 : m' 1 = m 1)
    (h2 : m' 2 = m 2) : MergedFrom R u B order n L m' := by
  obtain ⟨P1, P2, h⟩ := h
  refine ⟨P1, P2, ⟨⟨?_, ?_⟩, h.pos, h.sum1, h.sum2, ?_, ?_, ?_, h.diff1, h.diff2, ?_, ?_, ?_, ?_⟩⟩
  · rw [h0]; exact h.sound.weight
  · rw [h2]; exact h.sound.var
  · rw [h0]; exact h.comp1
  · rw [h0]; exact h.comp2
  · rw [h0]; exact h.weight
  · rw [h0, h1]; exact h.mean
  · rw [h0, h1, h2]; exact h.square
  · rw [h1]; exact h.small1
  · rw [h1, h2]; exact h.small2

/-- A sample has the effect of a record without variance. -/
theorem MergedFrom.pushVal (h : Accurate R u) (hB : 0 ≤ B) (hsm : 2800 * ((n + 1 : ℕ) * u) ≤ 1) {s : Sample K}
    (hw : IsWeight R s.w) (hx : |s.x| ≤ B) (hm : MergedFrom R u B order n L m) :
    ∃ m', (R.kernel1 order).pushVal s.x s.w m = some m' ∧ MergedFrom R u B order (n + 1) (L ++ [sampleRecord s]) m' := by
  let d : Mom K := fun i => if i = 0 then s.w else if i = 1 then s.x else 0
  have hb : Bounded R B d := ⟨hw, le_rfl, by
    show (0 : K) + s.x ^ 2 ≤ B ^ 2
    rw [zero_add]
    exact sq_le_sq' (abs_le.1 hx).1 (abs_le.1 hx).2⟩
  obtain ⟨m1, e, h1⟩ := MergedFrom.push h hB hsm ((MergedFrom.record hB hb).mono h.nonneg hB n.zero_le) hm
  change R.pushDataBody order s.w d m = some m1 at e
  change MergedFrom R u B order (n + 1) (L ++ [sampleRecord s]) m1 at h1
  show ∃ m', R.pushVal order s.x s.w m = some m' ∧ _
  by_cases hz : s.w = 0
  · refine ⟨m1, ?_, h1⟩
    rw [← e]
    unfold Precision.pushVal Precision.pushDataBody
    rw [if_pos hz, if_pos hz]
  · obtain ⟨P1, P2, hM⟩ := hm
    obtain ⟨-, -, -, h4, -⟩ := h.precision.push_numbers hM.sound.weight hw hz
    obtain ⟨m2, e', a0, a1, a2, a3⟩ := Precision.pushDataBody_cases order s.w d m hz h4.ne'
    obtain ⟨m3, e3, b0, b1, b2, b3⟩ := Precision.pushVal_cases order s.x s.w m hz h4.ne'
    rw [e] at e'
    obtain rfl := Option.some.inj e'
    refine ⟨m3, e3, h1.congr (b0.trans a0.symm) (b1.trans a1.symm) ?_⟩
    by_cases ho : order = 1
    · rw [b2 ho, a2 ho]
    · rw [b3 ho, a3 ho]
      have d2 : d 2 = 0 := rfl
      have d1 : d 1 = s.x := rfl
      rw [d2, d1, zero_mul, h.precision.lo.zero, zero_add, h.precision.hi.idem]

/-- Samples pushed one after the other. -/
theorem MergedFrom.vals (h : Accurate R u) (hB : 0 ≤ B) {l : List (Sample K)}
    (hl : ∀ s ∈ l, IsWeight R s.w ∧ |s.x| ≤ B) (hsm : 2800 * ((n + l.length : ℕ) * u) ≤ 1)
    (hm : MergedFrom R u B order n L m) :
    ∃ m', (R.kernel1 order).reduceVals (toVals l) m = some m' ∧
      MergedFrom R u B order (n + l.length) (L ++ l.map sampleRecord) m' := by
  induction l generalizing n L m with
  | nil => exact ⟨m, rfl, by simpa using hm⟩
  | cons s l ih =>
    have c : ((n + 1 : ℕ) : K) * u ≤ (n + (s :: l).length : ℕ) * u :=
      mul_le_mul_of_nonneg_right (by exact_mod_cast (by simp : n + 1 ≤ n + (s :: l).length)) h.nonneg
    obtain ⟨hw, hx⟩ := hl s List.mem_cons_self
    obtain ⟨m1, e1, h1⟩ := MergedFrom.pushVal h hB (by linarith) hw hx hm
    have q : n + 1 + l.length = n + (s :: l).length := by rw [List.length_cons]; omega
    obtain ⟨m2, e2, h2⟩ := ih (fun d hd => hl d (List.mem_cons_of_mem _ hd)) (by rw [q]; exact hsm) h1
    refine ⟨m2, ?_, ?_⟩
    · unfold Kernel.reduceVals toVals at e2 ⊢
      rw [List.map_cons, List.foldlM_cons, e1]
      exact e2
    · rw [q] at h2
      simpa using h2

variable {ι : Type*} {f : ι → Mom K} {g : ι → List (Record K)} {k : ℕ}

/-- Records pushed one after the other. -/
theorem MergedFrom.foldlM (h : Accurate R u) (hB : 0 ≤ B) {es : List ι}
    (he : ∀ i ∈ es, MergedFrom R u B order k (g i) (f i)) (hk : k ≤ n)
    (hsm : 2800 * ((n + es.length : ℕ) * u) ≤ 1) (hm : MergedFrom R u B order n L m) :
    ∃ m', (es.map f).foldlM (fun o d => (R.kernel1 order).pushData d o) m = some m' ∧
      MergedFrom R u B order (n + es.length) (L ++ es.flatMap g) m' := by
  induction es generalizing n L m with
  | nil => exact ⟨m, rfl, by simpa using hm⟩
  | cons d es ih =>
    have c : ((n + 1 : ℕ) : K) * u ≤ (n + (d :: es).length : ℕ) * u :=
      mul_le_mul_of_nonneg_right (by exact_mod_cast (by simp : n + 1 ≤ n + (d :: es).length)) h.nonneg
    obtain ⟨m1, e1, h1⟩ := MergedFrom.push h hB (by linarith) ((he d List.mem_cons_self).mono h.nonneg hB hk) hm
    have q : n + 1 + es.length = n + (d :: es).length := by rw [List.length_cons]; omega
    obtain ⟨m2, e2, h2⟩ := ih (fun d hd => he d (List.mem_cons_of_mem _ hd)) (by omega) (by rw [q]; exact hsm) h1
    refine ⟨m2, ?_, ?_⟩
    · rw [List.map_cons, List.foldlM_cons, e1]
      exact e2
    · rw [q] at h2
      simpa using h2

theorem MergedFrom.tree (h : Accurate R u) (hB : 0 ≤ B) {t : MergeTree ι}
    (ht : ∀ i ∈ t.records, MergedFrom R u B order k (g i) (f i)) (hsm : 2800 * ((k + mergeDepth t : ℕ) * u) ≤ 1) :
    ∃ m, (R.kernel1 order).evalTree (mapTree f t) = some m ∧
      MergedFrom R u B order (k + mergeDepth t) (t.records.flatMap g) m := by
  have hu := h.nonneg
  induction t with
  | leaf c => exact MergedFrom.foldlM h hB ht le_rfl hsm ((MergedFrom.zero h hB order).mono hu hB k.zero_le)
  | node l r ihl ihr =>
    have dl : mergeDepth l ≤ max (mergeDepth l) (mergeDepth r) := le_max_left _ _
    have dr : mergeDepth r ≤ max (mergeDepth l) (mergeDepth r) := le_max_right _ _
    have dn : mergeDepth (.node l r) = max (mergeDepth l) (mergeDepth r) + 1 := rfl
    rw [dn] at hsm ⊢
    rw [← add_assoc] at hsm ⊢
    have cl : ((k + mergeDepth l : ℕ) : K) * u ≤ (k + max (mergeDepth l) (mergeDepth r) + 1 : ℕ) * u :=
      mul_le_mul_of_nonneg_right (by exact_mod_cast (by omega)) hu
    have cr : ((k + mergeDepth r : ℕ) : K) * u ≤ (k + max (mergeDepth l) (mergeDepth r) + 1 : ℕ) * u :=
      mul_le_mul_of_nonneg_right (by exact_mod_cast (by omega)) hu
    obtain ⟨a, ea, ha⟩ := ihl (fun d hd => ht d (List.mem_append_left _ hd)) (by linarith)
    obtain ⟨b, eb, hb⟩ := ihr (fun d hd => ht d (List.mem_append_right _ hd)) (by linarith)
    obtain ⟨m, e, hm⟩ := MergedFrom.push h hB hsm (ha.mono hu hB (Nat.add_le_add_left dl k))
      (hb.mono hu hB (Nat.add_le_add_left dr k))
    refine ⟨m, ?_, hm.perm ?_⟩
    · unfold mapTree Kernel.evalTree
      rw [ea, eb]
      exact e
    · show (r.records.flatMap g ++ l.records.flatMap g).Perm ((l.records ++ r.records).flatMap g)
      rw [List.flatMap_append]
      exact List.perm_append_comm

/-- `cumulative`, from any row. -/
theorem MergedFrom.cumulativeGo (h : Accurate R u) (hB : 0 ≤ B) {ds : List (Mom K)} (hd : ∀ d ∈ ds, Bounded R B d)
    (hsm : 2800 * ((n + ds.length : ℕ) * u) ≤ 1) (hm : MergedFrom R u B order n L m) :
    ∃ rs, (R.kernel1 order).cumulativeGo m ds = some rs ∧ rs.length = ds.length ∧
      ∀ (i : ℕ) (hi : i < rs.length),
        MergedFrom R u B order (n + (i + 1)) (L ++ (ds.take (i + 1)).map recordOf) rs[i] := by
  induction ds generalizing n L m with
  | nil => exact ⟨[], rfl, rfl, fun i hi => absurd hi (by simp)⟩
  | cons d ds ih =>
    have c : ((n + 1 : ℕ) : K) * u ≤ (n + (d :: ds).length : ℕ) * u :=
      mul_le_mul_of_nonneg_right (by exact_mod_cast (by simp : n + 1 ≤ n + (d :: ds).length)) h.nonneg
    obtain ⟨m1, e1, h1⟩ := MergedFrom.push h hB (by linarith) hm
      ((MergedFrom.record hB (hd d List.mem_cons_self)).mono h.nonneg hB n.zero_le)
    have h1 := h1.perm List.perm_append_comm
    have q : n + 1 + ds.length = n + (d :: ds).length := by rw [List.length_cons]; omega
    obtain ⟨rs, e2, hl, h2⟩ := ih (fun d hd' => hd d (List.mem_cons_of_mem _ hd')) (by rw [q]; exact hsm) h1
    refine ⟨m1 :: rs, ?_, by simp [hl], fun i hi => ?_⟩
    · unfold Kernel.cumulativeGo
      rw [e1]
      show ((R.kernel1 order).cumulativeGo m1 ds).bind _ = _
      rw [e2]
      rfl
    · cases i with
      | zero => simpa using h1
      | succ i =>
        have := h2 i (by simpa using hi)
        have q' : n + 1 + (i + 1) = n + (i + 1 + 1) := by omega
        rw [q'] at this
        simpa using this

end Cmomy
