import Verif.Lemmas.Generic

/-!
# From raw sums to the specification
-/

namespace Cmomy

open Spec Finset

variable {K : Type*} [Field K] [DecidableEq K] [CharZero K]

/-! ### one variable -/

section
omit [DecidableEq K] [CharZero K]

theorem wsum_nil (f : K → K) : wsum [] f = 0 := rfl
theorem wsum_cons (s : Sample K) (L : List (Sample K)) (f : K → K) :
    wsum (s :: L) f = s.w * f s.x + wsum L f := by simp [wsum]
theorem wsum_append (L L' : List (Sample K)) (f : K → K) :
    wsum (L ++ L') f = wsum L f + wsum L' f := by simp [wsum]
theorem wsum_one (L : List (Sample K)) : wsum L (fun _ => 1) = weight L := by
  simp [wsum, Spec.weight]
theorem wsum_perm {L L' : List (Sample K)} (h : L.Perm L') (f : K → K) : wsum L f = wsum L' f :=
  (h.map _).sum_eq
theorem weight_append (L L' : List (Sample K)) :
    weight (L ++ L') = weight L + weight L' := by simp [Spec.weight]
theorem weight_perm {L L' : List (Sample K)} (h : L.Perm L') : weight L = weight L' :=
  (h.map _).sum_eq

theorem wsum_add (L : List (Sample K)) (f g : K → K) :
    wsum L (fun x => f x + g x) = wsum L f + wsum L g := by
  induction L with
  | nil => simp [wsum_nil]
  | cons s L ih => simp only [wsum_cons, ih]; ring

theorem wsum_mul (L : List (Sample K)) (a : K) (f : K → K) :
    wsum L (fun x => a * f x) = a * wsum L f := by
  induction L with
  | nil => simp [wsum_nil]
  | cons s L ih => simp only [wsum_cons, ih]; ring

/-- Shifting the sequence of power sums about `c` gives the power sums about `c - t`. -/
theorem shift_wsum (L : List (Sample K)) (c t : K) (n : ℕ) :
    shift t (fun i => wsum L (fun x => (x - c) ^ i)) n = wsum L (fun x => (x - c + t) ^ n) := by
  induction L with
  | nil => simp [wsum_nil, shift]
  | cons s L ih =>
    simp only [wsum_cons]
    rw [shift_add, shift_mul, shift_pow, ih]

theorem wsum_sub_mean (L : List (Sample K)) (hW : weight L ≠ 0) :
    wsum L (fun x => x - mean L) = 0 := by
  have : wsum L (fun x => x - mean L) = wsum L (fun x => x) + wsum L (fun _ => (-mean L) * 1) := by
    rw [← wsum_add]; congr 1; funext x; ring
  rw [this, wsum_mul, wsum_one, Spec.mean]
  field_simp; ring

theorem full_central (L : List (Sample K)) (hW : weight L ≠ 0) {out : ℕ → K} {order : ℕ}
    (hc : ∀ n, 2 ≤ n → n ≤ order → out n = central L n) (n : ℕ) (hn : n ≤ order) :
    full out n = (weight L)⁻¹ * wsum L (fun x => (x - mean L) ^ n) := by
  by_cases h0 : n = 0
  · subst h0
    simp only [pow_zero]
    rw [wsum_one, inv_mul_cancel₀ hW]; rfl
  by_cases h1 : n = 1
  · subst h1
    simp only [pow_one]
    rw [wsum_sub_mean L hW, mul_zero]; rfl
  rw [full_of_two_le _ (by omega), hc n (by omega) hn, Spec.central, div_eq_inv_mul]

theorem isMoments_raw {order : ℕ} {L : List (Sample K)} (hW : weight L ≠ 0) {out : ℕ → K}
    (hm : IsMoments order L out) (n : ℕ) (hn : n ≤ order) :
    out 0 * shift (out 1) (full out) n = wsum L (fun x => x ^ n) := by
  rw [shift_congr (fun i hi => full_central L hW hm.central i (by omega)), shift_mul, shift_wsum,
    hm.weight, hm.mean, ← mul_assoc, mul_inv_cancel₀ hW, one_mul]
  simp

theorem nrm1_injective {order : ℕ} (ho : 1 ≤ order) {a b : ℕ → K}
    (h : ∀ n, n ≤ order → shift (a 1) (full a) n = shift (b 1) (full b) n) (n : ℕ) (h1 : 1 ≤ n)
    (hn : n ≤ order) : a n = b n := by
  have e1 : a 1 = b 1 := by
    have := h 1 ho
    simpa [shift_at_one] using this
  by_cases hn1 : n = 1
  · rw [hn1, e1]
  have key : ∀ c : ℕ → K, full c n = shift (-(c 1)) (fun i => shift (c 1) (full c) i) n := by
    intro c
    have := shift_shift (-(c 1)) (c 1) (full c) n
    rw [neg_add_cancel, shift_zero] at this
    exact this.symm
  have := key a
  rw [shift_congr (d := fun i => shift (b 1) (full b) i) (fun i hi => h i (by omega)), e1,
    ← key b] at this
  rwa [full_of_two_le _ (by omega), full_of_two_le _ (by omega)] at this

theorem exists_isMoments (order : ℕ) (L : List (Sample K)) : ∃ out, IsMoments order L out :=
  ⟨fun n => if n = 0 then weight L else if n = 1 then mean L else central L n,
    by constructor
       · simp
       · simp
       · intro n h2 _
         simp [show n ≠ 0 by omega, show n ≠ 1 by omega]⟩

theorem isMoments_of_eqUpTo {order : ℕ} (ho : 1 ≤ order) {L : List (Sample K)} {a b : ℕ → K}
    (e : EqUpTo order a b) (h : IsMoments order L b) : IsMoments order L a where
  weight := (e 0 (by omega)).trans h.weight
  mean := (e 1 ho).trans h.mean
  central n h2 hn := (e n hn).trans (h.central n h2 hn)

theorem eqUpTo_of_isMoments {order : ℕ} {L : List (Sample K)} {a b : ℕ → K}
    (ha : IsMoments order L a) (hb : IsMoments order L b) : EqUpTo order a b := by
  intro n hn
  by_cases h0 : n = 0
  · rw [h0, ha.weight, hb.weight]
  by_cases h1 : n = 1
  · rw [h1, ha.mean, hb.mean]
  rw [ha.central n (by omega) hn, hb.central n (by omega) hn]

end

theorem eqv1_iff {order : ℕ} (ho : 1 ≤ order) {a b : Mom K} :
    (lawful1 (K := K) order ho).Eqv a b ↔ EqUpTo order a b := by
  constructor
  · rintro ⟨hw, hn⟩ n hn'
    by_cases h0 : n = 0
    · subst h0; exact hw
    refine nrm1_injective ho (fun i hi => ?_) n (by omega) hn'
    exact congrFun hn ⟨i, by omega⟩
  · intro e
    refine ⟨e 0 (by omega), ?_⟩
    funext n
    change shift (a 1) (full a) n = shift (b 1) (full b) n
    rw [e 1 ho]
    exact shift_congr fun i hi => full_congr (e i (by have := n.2; omega))

theorem isMoments_iff_raw {order : ℕ} (ho : 1 ≤ order) {L : List (Sample K)}
    (hW : weight L ≠ 0) {out : Mom K} :
    IsMoments order L out ↔
      ∀ n : Fin (order + 1), (lawful1 (K := K) order ho).raw out n = wsum L (fun x => x ^ (n : ℕ)) := by
  constructor
  · intro hm n
    exact isMoments_raw hW hm n (by have := n.2; omega)
  · intro h
    obtain ⟨s, hs⟩ := exists_isMoments order L
    refine isMoments_of_eqUpTo ho ?_ hs
    rw [← eqv1_iff ho]
    have hraw : (lawful1 (K := K) order ho).raw out = (lawful1 (K := K) order ho).raw s := by
      funext n
      rw [h n]
      exact (isMoments_raw hW hs n (by have := n.2; omega)).symm
    refine (lawful1 (K := K) order ho).eqv_of_raw ?_ hraw
    rw [← (lawful1 (K := K) order ho).raw_i0, h]
    simpa [lawful1, wsum_one] using hW

theorem vsum1_eq {order : ℕ} (ho : 1 ≤ order) (L : List (Sample K)) (n : Fin (order + 1)) :
    (lawful1 (K := K) order ho).vsum (toVals L) n = wsum L (fun x => x ^ (n : ℕ)) := by
  induction L with
  | nil => rfl
  | cons s L ih =>
    simp only [Lawful.vsum, toVals, List.map_cons, List.sum_cons, Pi.add_apply, Pi.smul_apply,
      smul_eq_mul, wsum_cons] at ih ⊢
    rw [ih]; rfl

theorem holds_iff_raw {order : ℕ} (ho : 1 ≤ order) {L : List (Sample K)} {out : Mom K} :
    Holds order L out ↔
      ∀ n : Fin (order + 1), (lawful1 (K := K) order ho).raw out n = wsum L (fun x => x ^ (n : ℕ)) := by
  constructor
  · rintro (⟨hW, hm⟩ | ⟨h0, hz⟩) n
    · exact (isMoments_iff_raw ho hW).1 hm n
    · rw [hz n (by have := n.2; omega), (lawful1 (K := K) order ho).raw_of_weight_zero h0]; rfl
  · intro h
    by_cases hW : weight L = 0
    · right
      have h0 : out 0 = 0 := by
        have := h 0
        rw [← hW, ← wsum_one]
        simpa [Lawful.raw, lawful1, nrm1, shift_at_zero, kernel1] using this
      refine ⟨h0, fun n hn => ?_⟩
      have := h ⟨n, by omega⟩
      rw [← this, (lawful1 (K := K) order ho).raw_of_weight_zero h0]; rfl
    · exact Or.inl ⟨hW, (isMoments_iff_raw ho hW).2 h⟩

/-! ### two variables -/

section
omit [DecidableEq K] [CharZero K]

theorem wsum2_nil (f : K → K → K) : wsum2 [] f = 0 := rfl
theorem wsum2_cons (s : Sample2 K) (L : List (Sample2 K)) (f : K → K → K) :
    wsum2 (s :: L) f = s.w * f s.x s.y + wsum2 L f := by simp [wsum2]
theorem wsum2_append (L L' : List (Sample2 K)) (f : K → K → K) :
    wsum2 (L ++ L') f = wsum2 L f + wsum2 L' f := by simp [wsum2]
theorem wsum2_one (L : List (Sample2 K)) : wsum2 L (fun _ _ => 1) = weight2 L := by
  simp [wsum2, weight2]
theorem wsum2_perm {L L' : List (Sample2 K)} (h : L.Perm L') (f : K → K → K) :
    wsum2 L f = wsum2 L' f := (h.map _).sum_eq
theorem weight2_append (L L' : List (Sample2 K)) :
    weight2 (L ++ L') = weight2 L + weight2 L' := by simp [weight2]
theorem weight2_perm {L L' : List (Sample2 K)} (h : L.Perm L') : weight2 L = weight2 L' :=
  (h.map _).sum_eq

theorem wsum2_add (L : List (Sample2 K)) (f g : K → K → K) :
    wsum2 L (fun x y => f x y + g x y) = wsum2 L f + wsum2 L g := by
  induction L with
  | nil => simp [wsum2_nil]
  | cons s L ih => simp only [wsum2_cons, ih]; ring

theorem wsum2_mul (L : List (Sample2 K)) (a : K) (f : K → K → K) :
    wsum2 L (fun x y => a * f x y) = a * wsum2 L f := by
  induction L with
  | nil => simp [wsum2_nil]
  | cons s L ih => simp only [wsum2_cons, ih]; ring

theorem shift2_wsum2 (L : List (Sample2 K)) (c d s t : K) (i j : ℕ) :
    shift2 s t (fun a b => wsum2 L (fun x y => (x - c) ^ a * (y - d) ^ b)) i j =
      wsum2 L (fun x y => (x - c + s) ^ i * (y - d + t) ^ j) := by
  induction L with
  | nil => simp [wsum2_nil, shift2, shift]
  | cons p L ih =>
    simp only [wsum2_cons]
    rw [shift2_add, shift2_mul, shift2_pow, ih]

theorem wsum2_sub_meanX (L : List (Sample2 K)) (hW : weight2 L ≠ 0) :
    wsum2 L (fun x _ => x - meanX L) = 0 := by
  have : wsum2 L (fun x _ => x - meanX L) =
      wsum2 L (fun x _ => x) + wsum2 L (fun _ _ => (-meanX L) * 1) := by
    rw [← wsum2_add]; congr 1; funext x y; ring
  rw [this, wsum2_mul, wsum2_one, meanX]
  field_simp; ring

theorem wsum2_sub_meanY (L : List (Sample2 K)) (hW : weight2 L ≠ 0) :
    wsum2 L (fun _ y => y - meanY L) = 0 := by
  have : wsum2 L (fun _ y => y - meanY L) =
      wsum2 L (fun _ y => y) + wsum2 L (fun _ _ => (-meanY L) * 1) := by
    rw [← wsum2_add]; congr 1; funext x y; ring
  rw [this, wsum2_mul, wsum2_one, meanY]
  field_simp; ring

theorem full2_central (L : List (Sample2 K)) (hW : weight2 L ≠ 0) {out : ℕ → ℕ → K} {o0 o1 : ℕ}
    (hc : ∀ i j, i ≤ o0 → j ≤ o1 → 2 ≤ i + j → out i j = central2 L i j) (i j : ℕ) (hi : i ≤ o0)
    (hj : j ≤ o1) :
    full2 out i j =
      (weight2 L)⁻¹ * wsum2 L (fun x y => (x - meanX L) ^ i * (y - meanY L) ^ j) := by
  by_cases hij : 2 ≤ i + j
  · rw [full2_of_two_le _ hij, hc i j hi hj hij, central2, div_eq_inv_mul]
  · have : (i = 0 ∧ j = 0) ∨ (i = 1 ∧ j = 0) ∨ (i = 0 ∧ j = 1) := by omega
    rcases this with ⟨rfl, rfl⟩ | ⟨rfl, rfl⟩ | ⟨rfl, rfl⟩
    · simp only [pow_zero, mul_one]
      rw [wsum2_one, inv_mul_cancel₀ hW]; rfl
    · simp only [pow_zero, pow_one, mul_one]
      rw [wsum2_sub_meanX L hW, mul_zero]; rfl
    · simp only [pow_zero, pow_one, one_mul]
      rw [wsum2_sub_meanY L hW, mul_zero]; rfl

theorem isComoments_raw {o0 o1 : ℕ} {L : List (Sample2 K)} (hW : weight2 L ≠ 0)
    {out : ℕ → ℕ → K} (hm : IsComoments o0 o1 L out) (i j : ℕ) (hi : i ≤ o0) (hj : j ≤ o1) :
    out 0 0 * shift2 (out 1 0) (out 0 1) (full2 out) i j =
      wsum2 L (fun x y => x ^ i * y ^ j) := by
  rw [shift2_congr (fun a b ha hb => full2_central L hW hm.central a b (by omega) (by omega)),
    shift2_mul, shift2_wsum2, hm.weight, hm.meanX, hm.meanY, ← mul_assoc, mul_inv_cancel₀ hW,
    one_mul]
  simp

theorem nrm2_injective {o0 o1 : ℕ} (h0 : 1 ≤ o0) (h1 : 1 ≤ o1) {a b : ℕ → ℕ → K}
    (h : ∀ i j, i ≤ o0 → j ≤ o1 → shift2 (a 1 0) (a 0 1) (full2 a) i j =
      shift2 (b 1 0) (b 0 1) (full2 b) i j) (i j : ℕ) (hpos : 1 ≤ i + j)
    (hi : i ≤ o0) (hj : j ≤ o1) : a i j = b i j := by
  have e0 : a 1 0 = b 1 0 := by
    have := h 1 0 h0 (by omega)
    simpa [shift2_at_one_zero, full2] using this
  have e1 : a 0 1 = b 0 1 := by
    have := h 0 1 (by omega) h1
    simpa [shift2_at_zero_one, full2] using this
  by_cases hij : 2 ≤ i + j
  · have key : ∀ c : ℕ → ℕ → K, full2 c i j =
        shift2 (-(c 1 0)) (-(c 0 1)) (fun i j => shift2 (c 1 0) (c 0 1) (full2 c) i j) i j := by
      intro c
      have := shift2_shift2 (-(c 1 0)) (-(c 0 1)) (c 1 0) (c 0 1) (full2 c) i j
      rw [neg_add_cancel, neg_add_cancel, shift2_zero] at this
      exact this.symm
    have := key a
    rw [shift2_congr (d := fun i j => shift2 (b 1 0) (b 0 1) (full2 b) i j)
      (fun a b ha hb => h a b (by omega) (by omega)), e0, e1, ← key b] at this
    rwa [full2_of_two_le _ hij, full2_of_two_le _ hij] at this
  · have : (i = 1 ∧ j = 0) ∨ (i = 0 ∧ j = 1) := by omega
    rcases this with ⟨rfl, rfl⟩ | ⟨rfl, rfl⟩
    · exact e0
    · exact e1

theorem exists_isComoments (o0 o1 : ℕ) (L : List (Sample2 K)) : ∃ out, IsComoments o0 o1 L out :=
  ⟨fun i j => if i = 0 ∧ j = 0 then weight2 L else if i = 1 ∧ j = 0 then meanX L
    else if i = 0 ∧ j = 1 then meanY L else central2 L i j,
    by constructor
       · simp
       · simp
       · simp
       · intro i j _ _ hij
         simp [show ¬ (i = 0 ∧ j = 0) by omega, show ¬ (i = 1 ∧ j = 0) by omega,
           show ¬ (i = 0 ∧ j = 1) by omega]⟩

theorem isComoments_of_eqUpTo2 {o0 o1 : ℕ} (h0 : 1 ≤ o0) (h1 : 1 ≤ o1) {L : List (Sample2 K)}
    {a b : ℕ → ℕ → K} (e : EqUpTo2 o0 o1 a b) (h : IsComoments o0 o1 L b) :
    IsComoments o0 o1 L a where
  weight := (e 0 0 (by omega) (by omega)).trans h.weight
  meanX := (e 1 0 h0 (by omega)).trans h.meanX
  meanY := (e 0 1 (by omega) h1).trans h.meanY
  central i j hi hj hij := (e i j hi hj).trans (h.central i j hi hj hij)

theorem eqUpTo2_of_isComoments {o0 o1 : ℕ} {L : List (Sample2 K)} {a b : ℕ → ℕ → K}
    (ha : IsComoments o0 o1 L a) (hb : IsComoments o0 o1 L b) : EqUpTo2 o0 o1 a b := by
  intro i j hi hj
  by_cases hij : 2 ≤ i + j
  · rw [ha.central i j hi hj hij, hb.central i j hi hj hij]
  · have : (i = 0 ∧ j = 0) ∨ (i = 1 ∧ j = 0) ∨ (i = 0 ∧ j = 1) := by omega
    rcases this with ⟨rfl, rfl⟩ | ⟨rfl, rfl⟩ | ⟨rfl, rfl⟩
    · rw [ha.weight, hb.weight]
    · rw [ha.meanX, hb.meanX]
    · rw [ha.meanY, hb.meanY]

end

theorem eqv2_iff {o0 o1 : ℕ} (h0 : 1 ≤ o0) (h1 : 1 ≤ o1) {a b : Com K} :
    (lawful2 (K := K) o0 o1 h0 h1).Eqv a b ↔ EqUpTo2 o0 o1 a b := by
  constructor
  · rintro ⟨hw, hn⟩ i j hi hj
    by_cases hz : i = 0 ∧ j = 0
    · obtain ⟨rfl, rfl⟩ := hz; exact hw
    refine nrm2_injective h0 h1 (fun a b ha hb => ?_) i j (by omega) hi hj
    exact congrFun hn (⟨a, by omega⟩, ⟨b, by omega⟩)
  · intro e
    refine ⟨e 0 0 (by omega) (by omega), ?_⟩
    funext p
    change shift2 (a 1 0) (a 0 1) (full2 a) p.1 p.2 = shift2 (b 1 0) (b 0 1) (full2 b) p.1 p.2
    rw [e 1 0 h0 (by omega), e 0 1 (by omega) h1]
    have hp1 := p.1.2
    have hp2 := p.2.2
    exact shift2_congr fun i j hi hj =>
      full2_congr_two fun _ => e i j (by omega) (by omega)

theorem isComoments_iff_raw {o0 o1 : ℕ} (h0 : 1 ≤ o0) (h1 : 1 ≤ o1) {L : List (Sample2 K)}
    (hW : weight2 L ≠ 0) {out : Com K} :
    IsComoments o0 o1 L out ↔ ∀ p : Fin (o0 + 1) × Fin (o1 + 1),
      (lawful2 (K := K) o0 o1 h0 h1).raw out p =
        wsum2 L (fun x y => x ^ (p.1 : ℕ) * y ^ (p.2 : ℕ)) := by
  constructor
  · intro hm p
    have hp1 := p.1.2
    have hp2 := p.2.2
    exact isComoments_raw hW hm p.1 p.2 (by omega) (by omega)
  · intro h
    obtain ⟨s, hs⟩ := exists_isComoments o0 o1 L
    refine isComoments_of_eqUpTo2 h0 h1 ?_ hs
    rw [← eqv2_iff h0 h1]
    have hraw : (lawful2 (K := K) o0 o1 h0 h1).raw out =
        (lawful2 (K := K) o0 o1 h0 h1).raw s := by
      funext p
      rw [h p]
      have hp1 := p.1.2
      have hp2 := p.2.2
      exact (isComoments_raw hW hs p.1 p.2 (by omega) (by omega)).symm
    refine (lawful2 (K := K) o0 o1 h0 h1).eqv_of_raw ?_ hraw
    rw [← (lawful2 (K := K) o0 o1 h0 h1).raw_i0, h]
    simpa [lawful2, wsum2_one] using hW

theorem vsum2_eq {o0 o1 : ℕ} (h0 : 1 ≤ o0) (h1 : 1 ≤ o1) (L : List (Sample2 K))
    (p : Fin (o0 + 1) × Fin (o1 + 1)) :
    (lawful2 (K := K) o0 o1 h0 h1).vsum (toVals2 L) p =
      wsum2 L (fun x y => x ^ (p.1 : ℕ) * y ^ (p.2 : ℕ)) := by
  induction L with
  | nil => rfl
  | cons s L ih =>
    simp only [Lawful.vsum, toVals2, List.map_cons, List.sum_cons, Pi.add_apply, Pi.smul_apply,
      smul_eq_mul, wsum2_cons] at ih ⊢
    rw [ih]; rfl

theorem holds2_iff_raw {o0 o1 : ℕ} (h0 : 1 ≤ o0) (h1 : 1 ≤ o1) {L : List (Sample2 K)}
    {out : Com K} :
    Holds2 o0 o1 L out ↔ ∀ p : Fin (o0 + 1) × Fin (o1 + 1),
      (lawful2 (K := K) o0 o1 h0 h1).raw out p =
        wsum2 L (fun x y => x ^ (p.1 : ℕ) * y ^ (p.2 : ℕ)) := by
  constructor
  · rintro (⟨hW, hm⟩ | ⟨hz0, hz⟩) p
    · exact (isComoments_iff_raw h0 h1 hW).1 hm p
    · rw [hz p.1 p.2 (by have := p.1.2; omega) (by have := p.2.2; omega),
        (lawful2 (K := K) o0 o1 h0 h1).raw_of_weight_zero hz0]; rfl
  · intro h
    by_cases hW : weight2 L = 0
    · right
      have hz : out 0 0 = 0 := by
        have := h 0
        rw [← hW, ← wsum2_one]
        simpa [Lawful.raw, lawful2, nrm2, shift2_at_zero, kernel2, full2] using this
      refine ⟨hz, fun i j hi hj => ?_⟩
      have := h (⟨i, by omega⟩, ⟨j, by omega⟩)
      rw [← this, (lawful2 (K := K) o0 o1 h0 h1).raw_of_weight_zero hz]; rfl
    · exact Or.inl ⟨hW, (isComoments_iff_raw h0 h1 hW).2 h⟩

end Cmomy
