import Verif.Model.Kernel
import Verif.Lemmas.PushCov
import Verif.Spec.Moments

/-!
# Moment arrays as additive raw sums

`Lawful k ι`: the pushers of `k` add raw sums. A moment array is faithfully described by its
weight and its normalised raw moments `nrm`; the raw sums are `weight * nrm`.
-/

namespace Cmomy

open Finset

variable {K V M : Type*} [Field K] [DecidableEq K]

structure Lawful (k : Kernel K V M) (ι : Type*) where
  /-- normalised raw moments of a moment array -/
  nrm : M → ι → K
  /-- monomials of a value -/
  vnrm : V → ι → K
  /-- the index of the constant monomial -/
  i0 : ι
  nrm_i0 : ∀ m, nrm m i0 = 1
  vnrm_i0 : ∀ x, vnrm x i0 = 1
  weight_zero : k.weight k.zero = 0
  weight_mul : ∀ m f, k.weight (k.mulWeight m f) = k.weight m * f
  nrm_mul : ∀ m f, nrm (k.mulWeight m f) = nrm m
  weight_ofVal : ∀ x w, k.weight (k.ofVal x w) = w
  nrm_ofVal : ∀ x w, nrm (k.ofVal x w) = vnrm x
  scale_skip : ∀ d s o, k.weight d * s = 0 → k.pushScale d s o = some o
  scale_none : ∀ d s o, k.weight d * s ≠ 0 → k.weight o + k.weight d * s = 0 →
    k.pushScale d s o = none
  scale_some : ∀ d s o, k.weight d * s ≠ 0 → k.weight o + k.weight d * s ≠ 0 →
    ∃ r, k.pushScale d s o = some r ∧ k.weight r = k.weight o + k.weight d * s ∧
      ∀ i, k.weight r * nrm r i = k.weight o * nrm o i + k.weight d * s * nrm d i
  data_eq : ∀ d o, k.pushData d o = k.pushScale d 1 o
  val_eq : ∀ x w f o, k.pushVal x (w * f) o = k.pushScale (k.ofVal x w) f o

/-! ### One variable -/

/-- Normalised raw moments of a moment array. -/
def nrm1 (order : ℕ) (m : Mom K) (n : Fin (order + 1)) : K := shift (m 1) (full m) n

omit [DecidableEq K] in
theorem combine_zero (α δ : K) (o d : Mom K) : combine α δ o d 0 = 1 := by
  simp [combine, shift_at_zero]

omit [DecidableEq K] in
theorem combine_one (α δ : K) (o d : Mom K) : combine α δ o d 1 = 0 := by
  simp [combine, shift_at_one]; ring

omit [DecidableEq K] in
theorem pushClosed_raw (order : ℕ) (w : K) (d o : Mom K) (hne : o 0 + w ≠ 0) (n : ℕ)
    (hn : n ≤ order) :
    (o 0 + w) * shift (pushClosed order w d o 1) (full (pushClosed order w d o)) n =
      o 0 * shift (o 1) (full o) n + w * shift (d 1) (full d) n := by
  set α := w / (o 0 + w) with hα
  set δ := d 1 - o 1 with hδ
  have e1 : pushClosed order w d o 1 = o 1 + δ * α := by simp [pushClosed, ← hα, ← hδ]
  have hfull : ∀ i, i ≤ n → full (pushClosed order w d o) i = combine α δ o d i := by
    intro i hi
    by_cases h0 : i = 0
    · subst h0; rw [combine_zero]; rfl
    by_cases h1 : i = 1
    · subst h1; rw [combine_one]; rfl
    rw [full_of_two_le _ (by omega)]
    have : i ≤ order := by omega
    simp [pushClosed, h0, h1, this, ← hα, ← hδ]
  rw [shift_congr hfull, e1]
  unfold combine
  rw [shift_add, shift_mul, shift_mul, shift_shift, shift_shift]
  have a1 : o 1 + δ * α + -(α * δ) = o 1 := by ring
  have a2 : o 1 + δ * α + (1 - α) * δ = d 1 := by rw [hδ]; ring
  rw [a1, a2]
  have w1 : (o 0 + w) * (1 - α) = o 0 := by rw [hα]; field_simp; ring
  have w2 : (o 0 + w) * α = w := by rw [hα]; field_simp
  rw [mul_add, ← mul_assoc, ← mul_assoc, w1, w2]

omit [DecidableEq K] in
theorem valToData_eq (x w : K) : valToData x w = singleton x w := by
  funext n
  unfold valToData singleton
  by_cases h1 : n = 1
  · subst h1; simp
  by_cases h0 : n = 0
  · subst h0; simp
  simp [h0, h1]

omit [DecidableEq K] in
theorem nrm_singleton (x w : K) (n : ℕ) : shift ((singleton x w) 1) (full (singleton x w)) n = x ^ n := by
  have h1 : (singleton x w) 1 = x := rfl
  have : ∀ i, i ≤ n → full (singleton x w) i = (0 : K) ^ i := by
    intro i _
    by_cases h0 : i = 0
    · subst h0; simp
    by_cases h1 : i = 1
    · subst h1; simp
    rw [full_of_two_le _ (by omega)]
    simp [singleton, h0, h1]
  rw [shift_congr this, h1, shift_pow, zero_add]

theorem pushDataBody_congr_data [CharZero K] (order : ℕ) (ho : 1 ≤ order) (w : K) {d d' : Mom K}
    (o : Mom K) (h : ∀ i, 1 ≤ i → d i = d' i) :
    pushDataBody order w d o = pushDataBody order w d' o := by
  rw [pushDataBody_eq order ho, pushDataBody_eq order ho]
  have : pushClosed order w d o = pushClosed order w d' o := by
    funext n
    simp only [pushClosed, h 1 le_rfl]
    rw [combine_congr (fun _ _ _ => rfl) (fun i h2 _ => h i (by omega))]
  rw [this]

def lawful1 [CharZero K] (order : ℕ) (ho : 1 ≤ order) :
    Lawful (kernel1 (K := K) order) (Fin (order + 1)) where
  nrm := nrm1 order
  vnrm x n := x ^ (n : ℕ)
  i0 := 0
  nrm_i0 m := by simp [nrm1, shift_at_zero]
  vnrm_i0 x := by simp
  weight_zero := rfl
  weight_mul m f := by simp [kernel1]
  nrm_mul m f := by
    funext n
    simp only [nrm1, kernel1, ne_eq, one_ne_zero, not_false_eq_true, Function.update_of_ne]
    refine shift_congr fun i _ => full_congr_two fun h => ?_
    rw [Function.update_of_ne (by omega)]
  weight_ofVal x w := by simp [kernel1, valToData]
  nrm_ofVal x w := by
    funext n
    simp only [kernel1, valToData_eq, nrm1, nrm_singleton]
  scale_skip d s o h := by
    simp only [kernel1, pushDataScale, pushDataBody_eq order ho] at *
    rw [if_pos h]
  scale_none d s o h h' := by
    simp only [kernel1, pushDataScale, pushDataBody_eq order ho] at *
    rw [if_neg h, if_pos h']
  scale_some d s o h h' := by
    simp only [kernel1, pushDataScale, pushDataBody_eq order ho] at *
    rw [if_neg h, if_neg h']
    refine ⟨_, rfl, by simp [pushClosed], fun i => ?_⟩
    have e0 : pushClosed order (d 0 * s) d o 0 = o 0 + d 0 * s := by simp [pushClosed]
    rw [e0]
    exact pushClosed_raw order _ d o h' i (Nat.lt_succ_iff.1 i.2)
  data_eq d o := by simp [kernel1, pushData, pushDataScale]
  val_eq x w f o := by
    simp only [kernel1, pushVal_eq_pushDataBody, pushDataScale, valToData_eq]
    exact pushDataBody_congr_data order ho _ o (fun i hi => by
      have : i ≠ 0 := by omega
      simp [singleton, this])

/-! ### Two variables -/

/-- Normalised raw comoments of a comoment array. -/
def nrm2 (o0 o1 : ℕ) (m : Com K) (p : Fin (o0 + 1) × Fin (o1 + 1)) : K :=
  shift2 (m 1 0) (m 0 1) (full2 m) p.1 p.2

omit [DecidableEq K] in
theorem shift2_at_zero (s t : K) (c : ℕ → ℕ → K) : shift2 s t c 0 0 = c 0 0 := by
  simp [shift2, shift_at_zero]

omit [DecidableEq K] in
theorem shift2_at_one_zero (s t : K) (c : ℕ → ℕ → K) :
    shift2 s t c 1 0 = c 1 0 + c 0 0 * s := by
  simp [shift2, shift_at_zero, shift_at_one]

omit [DecidableEq K] in
theorem shift2_at_zero_one (s t : K) (c : ℕ → ℕ → K) :
    shift2 s t c 0 1 = c 0 1 + c 0 0 * t := by
  simp [shift2, shift_at_zero, shift_at_one]

omit [DecidableEq K] in
theorem combine2_zero (α δ0 δ1 : K) (o d : Com K) : combine2 α δ0 δ1 o d 0 0 = 1 := by
  simp [combine2, shift2_at_zero, full2]

omit [DecidableEq K] in
theorem combine2_one_zero (α δ0 δ1 : K) (o d : Com K) : combine2 α δ0 δ1 o d 1 0 = 0 := by
  simp [combine2, shift2_at_one_zero, full2]; ring

omit [DecidableEq K] in
theorem combine2_zero_one (α δ0 δ1 : K) (o d : Com K) : combine2 α δ0 δ1 o d 0 1 = 0 := by
  simp [combine2, shift2_at_zero_one, full2]; ring

omit [DecidableEq K] in
theorem pushClosed2_raw (o0 o1 : ℕ) (w : K) (d o : Com K) (hne : o 0 0 + w ≠ 0) (i j : ℕ)
    (hi : i ≤ o0) (hj : j ≤ o1) :
    (o 0 0 + w) * shift2 (pushClosed2 o0 o1 w d o 1 0) (pushClosed2 o0 o1 w d o 0 1)
        (full2 (pushClosed2 o0 o1 w d o)) i j =
      o 0 0 * shift2 (o 1 0) (o 0 1) (full2 o) i j + w * shift2 (d 1 0) (d 0 1) (full2 d) i j := by
  set α := w / (o 0 0 + w) with hα
  set δ0 := d 1 0 - o 1 0 with hδ0
  set δ1 := d 0 1 - o 0 1 with hδ1
  have e0 : pushClosed2 o0 o1 w d o 1 0 = o 1 0 + δ0 * α := by simp [pushClosed2, ← hα, ← hδ0]
  have e1 : pushClosed2 o0 o1 w d o 0 1 = o 0 1 + δ1 * α := by simp [pushClosed2, ← hα, ← hδ1]
  have hfull : ∀ a b, a ≤ i → b ≤ j →
      full2 (pushClosed2 o0 o1 w d o) a b = combine2 α δ0 δ1 o d a b := by
    intro a b ha hb
    by_cases hab : 2 ≤ a + b
    · rw [full2_of_two_le _ hab]
      have n1 : ¬ (a = 0 ∧ b = 0) := by omega
      have n2 : ¬ (a = 1 ∧ b = 0) := by omega
      have n3 : ¬ (a = 0 ∧ b = 1) := by omega
      have n4 : a ≤ o0 ∧ b ≤ o1 := by omega
      simp [pushClosed2, n1, n2, n3, n4, ← hα, ← hδ0, ← hδ1]
    · have : (a = 0 ∧ b = 0) ∨ (a = 1 ∧ b = 0) ∨ (a = 0 ∧ b = 1) := by omega
      rcases this with ⟨rfl, rfl⟩ | ⟨rfl, rfl⟩ | ⟨rfl, rfl⟩
      · rw [combine2_zero]; rfl
      · rw [combine2_one_zero]; rfl
      · rw [combine2_zero_one]; rfl
  rw [shift2_congr hfull, e0, e1]
  unfold combine2
  rw [shift2_add, shift2_mul, shift2_mul, shift2_shift2, shift2_shift2]
  have a1 : o 1 0 + δ0 * α + -(α * δ0) = o 1 0 := by ring
  have a2 : o 1 0 + δ0 * α + (1 - α) * δ0 = d 1 0 := by rw [hδ0]; ring
  have b1 : o 0 1 + δ1 * α + -(α * δ1) = o 0 1 := by ring
  have b2 : o 0 1 + δ1 * α + (1 - α) * δ1 = d 0 1 := by rw [hδ1]; ring
  rw [a1, a2, b1, b2]
  have w1 : (o 0 0 + w) * (1 - α) = o 0 0 := by rw [hα]; field_simp; ring
  have w2 : (o 0 0 + w) * α = w := by rw [hα]; field_simp
  rw [mul_add, ← mul_assoc, ← mul_assoc, w1, w2]

omit [DecidableEq K] in
theorem valToDataCov_eq (x y w : K) : valToDataCov x y w = singleton2 x y w := by
  funext i j
  unfold valToDataCov singleton2
  simp only [setAt_apply, Prod.mk.injEq]
  split_ifs <;> first | rfl | omega

omit [DecidableEq K] in
theorem nrm_singleton2 (x y w : K) (i j : ℕ) :
    shift2 ((singleton2 x y w) 1 0) ((singleton2 x y w) 0 1) (full2 (singleton2 x y w)) i j =
      x ^ i * y ^ j := by
  have hx : (singleton2 x y w) 1 0 = x := by simp [singleton2]
  have hy : (singleton2 x y w) 0 1 = y := by simp [singleton2]
  have : ∀ a b, a ≤ i → b ≤ j → full2 (singleton2 x y w) a b = (0 : K) ^ a * 0 ^ b := by
    intro a b _ _
    by_cases hab : 2 ≤ a + b
    · rw [full2_of_two_le _ hab]
      have n1 : ¬ (a = 0 ∧ b = 0) := by omega
      have n2 : ¬ (a = 1 ∧ b = 0) := by omega
      have n3 : ¬ (a = 0 ∧ b = 1) := by omega
      simp only [singleton2, n1, n2, n3, if_false]
      rw [← pow_add, zero_pow (by omega)]
    · have : (a = 0 ∧ b = 0) ∨ (a = 1 ∧ b = 0) ∨ (a = 0 ∧ b = 1) := by omega
      rcases this with ⟨rfl, rfl⟩ | ⟨rfl, rfl⟩ | ⟨rfl, rfl⟩ <;> simp [full2]
  rw [shift2_congr this, hx, hy, shift2_pow, zero_add, zero_add]

theorem pushDataCovBody_congr_data [CharZero K] (o0 o1 : ℕ) (h0 : 1 ≤ o0) (h1 : 1 ≤ o1) (w : K)
    {d d' : Com K} (o : Com K) (h : ∀ i j, ¬ (i = 0 ∧ j = 0) → d i j = d' i j) :
    pushDataCovBody o0 o1 w d o = pushDataCovBody o0 o1 w d' o := by
  rw [pushDataCovBody_eq o0 o1 h0 h1, pushDataCovBody_eq o0 o1 h0 h1]
  have : pushClosed2 o0 o1 w d o = pushClosed2 o0 o1 w d' o := by
    funext i j
    simp only [pushClosed2, h 1 0 (by omega), h 0 1 (by omega)]
    rw [combine2_congr (fun _ _ _ _ _ => rfl) (fun a b _ _ hab => h a b (by omega))]
  rw [this]

def lawful2 [CharZero K] (o0 o1 : ℕ) (h0 : 1 ≤ o0) (h1 : 1 ≤ o1) :
    Lawful (kernel2 (K := K) o0 o1) (Fin (o0 + 1) × Fin (o1 + 1)) where
  nrm := nrm2 o0 o1
  vnrm x p := x.1 ^ (p.1 : ℕ) * x.2 ^ (p.2 : ℕ)
  i0 := (0, 0)
  nrm_i0 m := by simp [nrm2, shift2_at_zero, full2]
  vnrm_i0 x := by simp
  weight_zero := rfl
  weight_mul m f := by simp [kernel2, setAt_apply]
  nrm_mul m f := by
    funext p
    simp only [nrm2, kernel2]
    have e0 : setAt m 0 0 (m 0 0 * f) 1 0 = m 1 0 := by simp [setAt_apply]
    have e1 : setAt m 0 0 (m 0 0 * f) 0 1 = m 0 1 := by simp [setAt_apply]
    rw [e0, e1]
    refine shift2_congr fun a b _ _ => full2_congr_two fun h => ?_
    have n1 : ¬ (a = 0 ∧ b = 0) := by omega
    simp [setAt_apply, n1]
  weight_ofVal x w := by simp [kernel2, valToDataCov, setAt_apply]
  nrm_ofVal x w := by
    funext p
    simp only [kernel2, valToDataCov_eq, nrm2, nrm_singleton2]
  scale_skip d s o h := by
    simp only [kernel2, pushDataScaleCov, pushDataCovBody_eq o0 o1 h0 h1] at *
    rw [if_pos h]
  scale_none d s o h h' := by
    simp only [kernel2, pushDataScaleCov, pushDataCovBody_eq o0 o1 h0 h1] at *
    rw [if_neg h, if_pos h']
  scale_some d s o h h' := by
    simp only [kernel2, pushDataScaleCov, pushDataCovBody_eq o0 o1 h0 h1] at *
    rw [if_neg h, if_neg h']
    refine ⟨_, rfl, by simp [pushClosed2], fun p => ?_⟩
    have e0 : pushClosed2 o0 o1 (d 0 0 * s) d o 0 0 = o 0 0 + d 0 0 * s := by simp [pushClosed2]
    rw [e0]
    exact pushClosed2_raw o0 o1 _ d o h' p.1 p.2 (Nat.lt_succ_iff.1 p.1.2)
      (Nat.lt_succ_iff.1 p.2.2)
  data_eq d o := by simp [kernel2, pushDataCov, pushDataScaleCov]
  val_eq x w f o := by
    simp only [kernel2, pushValCov_eq_pushDataCovBody, pushDataScaleCov, valToDataCov_eq]
    exact pushDataCovBody_congr_data o0 o1 h0 h1 _ o (fun i j hi => by
      simp [singleton2, hi])

end Cmomy
