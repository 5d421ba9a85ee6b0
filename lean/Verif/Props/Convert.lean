import Verif.Lemmas.Convert
import Verif.Spec.Convert
import Verif.Props.Merge

/-!
# C14-C16: central and raw moments, moments and comoments
-/

namespace Cmomy

open Spec Cmomy.Convert

section

variable {K : Type*} [Field K] [CharZero K]

/-! ## C14 -/

/-- **C14.** The central moment array of a sample is converted to its raw moment array. -/
theorem C14_central_to_raw (order : ℕ) (L : List (Sample K)) (hW : weight L ≠ 0)
    (c mem : Mom K) (h : IsMoments order L c) :
    IsRawMoments order L (centralToRaw order c mem) := by
  refine ⟨by rw [centralToRaw_apply, if_pos rfl, h.weight], fun n h1 hn => ?_⟩
  have e := fullRaw_centralToRaw c mem hn
  rw [fullRaw, if_neg (by omega)] at e
  have r := isMoments_raw hW h n hn
  rw [e, rawMoment, ← r, h.weight]
  field_simp

/-- **C14.** The raw moment array of a sample is converted to its central moment array. -/
theorem C14_raw_to_central (order : ℕ) (ho : 1 ≤ order) (L : List (Sample K)) (hW : weight L ≠ 0)
    (r mem : Mom K) (h : IsRawMoments order L r) :
    IsMoments order L (rawToCentral order r mem) := by
  have h1 : r 1 = mean L := by rw [h.2 1 le_rfl ho, rawMoment, mean]; simp
  have hf : ∀ n, n ≤ order → fullRaw r n = (weight L)⁻¹ * wsum L (fun x => (x - 0) ^ n) := by
    intro n hn
    unfold fullRaw
    by_cases h0 : n = 0
    · subst h0; simp [wsum_one, hW]
    · rw [if_neg h0, h.2 n (by omega) hn, rawMoment, div_eq_inv_mul]; simp
  refine ⟨by rw [rawToCentral_apply, if_pos rfl, h.1],
    by rw [rawToCentral_apply, if_neg one_ne_zero, if_pos rfl, h1], fun n h2 hn => ?_⟩
  rw [rawToCentral_apply, if_neg (by omega), if_neg (by omega), if_pos hn,
    shift_congr (fun i hi => hf i (by omega)), shift_mul, shift_wsum, h1, central, div_eq_inv_mul]
  simp [sub_eq_add_neg]

/-- **C14.** Central to raw and back is the identity on every array of every order, whatever the
output memory held; entries past the end are not touched. -/
theorem C14_roundtrip_central (order : ℕ) (c mem mem' : Mom K) :
    EqUpTo order (rawToCentral order (centralToRaw order c mem) mem') c ∧
    ∀ n, 2 ≤ n → order < n →
      centralToRaw order c mem n = mem n ∧
      rawToCentral order (centralToRaw order c mem) mem' n = mem' n := by
  refine ⟨fun n hn => ?_, fun n h2 hn => ?_⟩
  · rw [rawToCentral_apply]
    by_cases h0 : n = 0
    · subst h0; rw [if_pos rfl, centralToRaw_apply, if_pos rfl]
    by_cases h1 : n = 1
    · subst h1
      rw [if_neg one_ne_zero, if_pos rfl, centralToRaw_apply, if_neg one_ne_zero, if_pos rfl]
    rw [if_neg h0, if_neg h1, if_pos hn,
      shift_congr (fun i hi => fullRaw_centralToRaw c mem (by omega : i ≤ order)), shift_shift]
    have : centralToRaw order c mem 1 = c 1 := by simp [centralToRaw_apply]
    rw [this, neg_add_cancel, shift_zero, full_of_two_le _ (by omega)]
  · constructor
    · rw [centralToRaw_apply, if_neg (by omega), if_neg (by omega), if_neg (by omega)]
    · rw [rawToCentral_apply, if_neg (by omega), if_neg (by omega), if_neg (by omega)]

/-- **C14.** Raw to central and back is the identity on every array of every order. -/
theorem C14_roundtrip_raw (order : ℕ) (r mem mem' : Mom K) :
    EqUpTo order (centralToRaw order (rawToCentral order r mem) mem') r := by
  intro n hn
  rw [centralToRaw_apply]
  by_cases h0 : n = 0
  · subst h0; rw [if_pos rfl, rawToCentral_apply, if_pos rfl]
  by_cases h1 : n = 1
  · subst h1
    rw [if_neg one_ne_zero, if_pos rfl, rawToCentral_apply, if_neg one_ne_zero, if_pos rfl]
  rw [if_neg h0, if_neg h1, if_pos hn,
    shift_congr (fun i hi => full_rawToCentral r mem (by omega : i ≤ order)), shift_shift]
  have : rawToCentral order r mem 1 = r 1 := by simp [rawToCentral_apply]
  rw [this, add_neg_cancel, shift_zero, fullRaw, if_neg h0]

/-- **C14.** Second raw moment is variance plus squared mean, third as usual. -/
theorem C14_low_orders (order : ℕ) (ho : 3 ≤ order) (c mem : Mom K) :
    centralToRaw order c mem 2 = c 2 + c 1 ^ 2 ∧
    centralToRaw order c mem 3 = c 3 + 3 * c 2 * c 1 + c 1 ^ 3 := by
  constructor
  · rw [centralToRaw_apply, if_neg (by omega), if_neg (by omega), if_pos (by omega),
      shift_full _ _ (by omega)]
    simp
  · rw [centralToRaw_apply, if_neg (by omega), if_neg (by omega), if_pos (by omega),
      shift_full _ _ (by omega)]
    simp [Finset.sum_range_succ]

/-! ## C15 -/

/-- **C15.** The central comoments of a sample are converted to its raw comoments. -/
theorem C15_central_to_raw (o0 o1 : ℕ) (L : List (Sample2 K))
    (hW : weight2 L ≠ 0) (c mem : Com K) (h : IsComoments o0 o1 L c) :
    IsRawComoments o0 o1 L (centralToRawCov o0 o1 c mem) := by
  refine ⟨?_, fun i j hi hj hij => ?_⟩
  · rw [centralToRawCov, fillCov_apply, if_pos ⟨Nat.zero_le _, Nat.zero_le _⟩,
      centralToRawCovEntry, if_pos (by omega), h.weight]
  · have e := fullRaw2_centralToRawCov c mem hi hj
    rw [fullRaw2, if_neg (by omega)] at e
    have r := isComoments_raw hW h i j hi hj
    rw [e, rawMoment2, ← r, h.weight]
    field_simp

/-- **C15.** The raw comoments of a sample are converted to its central comoments. -/
theorem C15_raw_to_central (o0 o1 : ℕ) (h0 : 1 ≤ o0) (h1 : 1 ≤ o1) (L : List (Sample2 K))
    (hW : weight2 L ≠ 0) (r mem : Com K) (h : IsRawComoments o0 o1 L r) :
    IsComoments o0 o1 L (rawToCentralCov o0 o1 r mem) := by
  have h10 : r 1 0 = meanX L := by
    rw [h.2 1 0 h0 (by omega) (by omega), rawMoment2, meanX]; simp
  have h01 : r 0 1 = meanY L := by
    rw [h.2 0 1 (by omega) h1 (by omega), rawMoment2, meanY]; simp
  have hf : ∀ a b, a ≤ o0 → b ≤ o1 → fullRaw2 r a b =
      (weight2 L)⁻¹ * wsum2 L (fun x y => (x - 0) ^ a * (y - 0) ^ b) := by
    intro a b ha hb
    unfold fullRaw2
    by_cases hab : a + b = 0
    · obtain ⟨rfl, rfl⟩ : a = 0 ∧ b = 0 := by omega
      simp [wsum2_one, hW]
    · rw [if_neg hab, h.2 a b ha hb (by omega), rawMoment2, div_eq_inv_mul]; simp
  have low : ∀ i j, i ≤ o0 → j ≤ o1 → i + j ≤ 1 → rawToCentralCov o0 o1 r mem i j = r i j := by
    intro i j hi hj hij
    rw [rawToCentralCov, fillCov_apply, if_pos ⟨hi, hj⟩, rawToCentralCovEntry, if_pos hij]
  refine ⟨by rw [low 0 0 (by omega) (by omega) (by omega), h.1],
    by rw [low 1 0 h0 (by omega) (by omega), h10],
    by rw [low 0 1 (by omega) h1 (by omega), h01], fun i j hi hj hij => ?_⟩
  have e := full2_rawToCentralCov r mem hi hj
  rw [full2_of_two_le _ hij] at e
  rw [e, shift2_congr (fun a b ha hb => hf a b (by omega) (by omega)), shift2_mul, shift2_wsum2,
    h10, h01, central2, div_eq_inv_mul]
  simp [sub_eq_add_neg]

/-- **C15.** Central to raw and back is the identity on every comoment array. -/
theorem C15_roundtrip_central (o0 o1 : ℕ) (h0 : 1 ≤ o0) (h1 : 1 ≤ o1) (c mem mem' : Com K) :
    EqUpTo2 o0 o1 (rawToCentralCov o0 o1 (centralToRawCov o0 o1 c mem) mem') c := by
  have low : ∀ i j, i ≤ o0 → j ≤ o1 → i + j ≤ 1 → centralToRawCov o0 o1 c mem i j = c i j := by
    intro i j hi hj hij
    rw [centralToRawCov, fillCov_apply, if_pos ⟨hi, hj⟩, centralToRawCovEntry, if_pos hij]
  intro i j hi hj
  by_cases hij : i + j ≤ 1
  · rw [rawToCentralCov, fillCov_apply, if_pos ⟨hi, hj⟩, rawToCentralCovEntry, if_pos hij,
      low i j hi hj hij]
  · have e := full2_rawToCentralCov (centralToRawCov o0 o1 c mem) mem' hi hj
    rw [full2_of_two_le _ (by omega), low 1 0 h0 (by omega) (by omega),
      low 0 1 (by omega) h1 (by omega),
      shift2_congr (fun a b ha hb => fullRaw2_centralToRawCov c mem (by omega : a ≤ o0)
        (by omega : b ≤ o1)), shift2_shift2, neg_add_cancel, neg_add_cancel, shift2_zero,
      full2_of_two_le _ (by omega)] at e
    exact e

/-- **C15.** Raw to central and back is the identity on every comoment array. -/
theorem C15_roundtrip_raw (o0 o1 : ℕ) (h0 : 1 ≤ o0) (h1 : 1 ≤ o1) (r mem mem' : Com K) :
    EqUpTo2 o0 o1 (centralToRawCov o0 o1 (rawToCentralCov o0 o1 r mem) mem') r := by
  have low : ∀ i j, i ≤ o0 → j ≤ o1 → i + j ≤ 1 → rawToCentralCov o0 o1 r mem i j = r i j := by
    intro i j hi hj hij
    rw [rawToCentralCov, fillCov_apply, if_pos ⟨hi, hj⟩, rawToCentralCovEntry, if_pos hij]
  intro i j hi hj
  by_cases hij : i + j ≤ 1
  · rw [centralToRawCov, fillCov_apply, if_pos ⟨hi, hj⟩, centralToRawCovEntry, if_pos hij,
      low i j hi hj hij]
  · have e := fullRaw2_centralToRawCov (rawToCentralCov o0 o1 r mem) mem' hi hj
    rw [fullRaw2, if_neg (by omega), low 1 0 h0 (by omega) (by omega),
      low 0 1 (by omega) h1 (by omega),
      shift2_congr (fun a b ha hb => full2_rawToCentralCov r mem (by omega : a ≤ o0)
        (by omega : b ≤ o1)), shift2_shift2, add_neg_cancel, add_neg_cancel, shift2_zero,
      fullRaw2, if_neg (by omega)] at e
    exact e

end

/-! ## C16 -/

section

variable {K : Type*} [Field K]

/-- **C16.** `moments_to_comoments` applied to the moments of `x` gives the comoments of the pairs
`(x, x)`, whenever the requested orders fit. -/
theorem C16_moments_to_comoments (order m0 m1 : ℕ) (h0 : 1 ≤ m0) (h1 : 1 ≤ m1)
    (hsum : m0 + m1 ≤ order) (L : List (Sample K)) (d : Mom K) (mem : Com K)
    (h : IsMoments order L d) :
    IsComoments m0 m1 (diagonal L) (momentsToComoments m0 m1 d mem) := by
  have hs : ∀ f : K → K → K, wsum2 (diagonal L) f = wsum L (fun x => f x x) := by
    intro f; simp [wsum2, wsum, diagonal, Function.comp_def]
  have hw : weight2 (diagonal L) = weight L := by
    simp [weight2, Spec.weight, diagonal, Function.comp_def]
  have hx : meanX (diagonal L) = mean L := by rw [meanX, hs, hw, mean]
  have hy : meanY (diagonal L) = mean L := by rw [meanY, hs, hw, mean]
  have at' : ∀ i j, i ≤ m0 → j ≤ m1 → momentsToComoments m0 m1 d mem i j = d (i + j) := by
    intro i j hi hj
    rw [momentsToComoments, fillCov_apply, if_pos ⟨hi, hj⟩]
  refine ⟨?_, ?_, ?_, fun i j hi hj hij => ?_⟩
  · rw [at' 0 0 (by omega) (by omega), hw]; exact h.weight
  · rw [at' 1 0 h0 (by omega), hx]; exact h.mean
  · rw [at' 0 1 (by omega) h1, hy]; exact h.mean
  · rw [at' i j hi hj, h.central _ hij (by omega), central2, hs, hw, hx, hy, central]
    congr 2
    funext x
    rw [pow_add]

/-- **C16.** `comoments_to_moments` undoes `moments_to_comoments` on all retained orders. -/
theorem C16_roundtrip (m0 m1 : ℕ) (d mem' : Mom K) (mem : Com K) :
    EqUpTo (m0 + m1) (comomentsToMoments m0 m1 (momentsToComoments m0 m1 d mem) mem') d := by
  intro k hk
  rw [comomentsToMoments_apply]
  by_cases h1 : k ≤ m1
  · rw [if_pos h1, momentsToComoments, fillCov_apply, if_pos ⟨Nat.zero_le _, h1⟩, Nat.zero_add]
  · rw [if_neg h1, if_pos hk, momentsToComoments, fillCov_apply, if_pos (by omega)]
    congr 1; omega

/-- **C16.** The comoments of `(x, x)` give back the moments of `x`, of order `m0 + m1`. -/
theorem C16_comoments_to_moments (m0 m1 : ℕ) (h0 : 1 ≤ m0) (h1 : 1 ≤ m1) (L : List (Sample K))
    (c : Com K) (mem : Mom K) (h : IsComoments m0 m1 (diagonal L) c) :
    IsMoments (m0 + m1) L (comomentsToMoments m0 m1 c mem) := by
  obtain ⟨d, hd⟩ := exists_isMoments (m0 + m1) L
  have e := eqUpTo2_of_isComoments h (C16_moments_to_comoments (m0 + m1) m0 m1 h0 h1 le_rfl L d c hd)
  refine isMoments_of_eqUpTo (by omega) ?_ hd
  intro k hk
  rw [← C16_roundtrip m0 m1 d mem c k hk, comomentsToMoments_apply, comomentsToMoments_apply]
  by_cases hk1 : k ≤ m1
  · rw [if_pos hk1, if_pos hk1, e 0 k (by omega) hk1]
  · rw [if_neg hk1, if_neg hk1, if_pos hk, if_pos hk, e (k - m1) m1 (by omega) le_rfl]

/-- **C16.** For an array in general each order takes the first entry met in row-major order. -/
theorem C16_first_entry (m0 m1 : ℕ) (c : Com K) (mem : Mom K) (k : ℕ) (hk : k ≤ m0 + m1) :
    ∃ i j, i ≤ m0 ∧ j ≤ m1 ∧ i + j = k ∧ comomentsToMoments m0 m1 c mem k = c i j ∧
      ∀ i' j', i' ≤ m0 → j' ≤ m1 → i' + j' = k → i ≤ i' := by
  rw [comomentsToMoments_apply]
  by_cases h1 : k ≤ m1
  · exact ⟨0, k, by omega, h1, by omega, by rw [if_pos h1], fun _ _ _ _ _ => by omega⟩
  · exact ⟨k - m1, m1, by omega, le_rfl, by omega, by rw [if_neg h1, if_pos hk],
      fun _ _ _ _ _ => by omega⟩

/-- **C16.** What the resolved `mom` is: accepted exactly when, after replacing a negative first
entry (else a negative second entry) by what is left of the original order, both entries are at
least 1 and their sum is at most the original order. -/
theorem C16_validate_accepts (m0 m1 orig a b : ℤ) :
    validateMom [m0, m1] orig = .ok (a, b) ↔
      1 ≤ a ∧ 1 ≤ b ∧ a + b ≤ orig ∧
      ((0 ≤ m0 ∧ 0 ≤ m1 ∧ a = m0 ∧ b = m1) ∨ (m0 < 0 ∧ b = m1 ∧ a + b = orig) ∨
        (0 ≤ m0 ∧ m1 < 0 ∧ a = m0 ∧ a + b = orig)) := by
  unfold validateMom
  simp only
  have key : ∀ x y : ℤ, ((if x < 1 ∨ y < 1 ∨ x + y > orig then Except.error PyErr.valueError
      else Except.ok (x, y) : Py (ℤ × ℤ)) = .ok (a, b)) ↔
      (1 ≤ x ∧ 1 ≤ y ∧ x + y ≤ orig ∧ x = a ∧ y = b) := by
    intro x y
    by_cases hc : x < 1 ∨ y < 1 ∨ x + y > orig
    · rw [if_pos hc]
      constructor
      · intro h; exact absurd h (by simp)
      · rintro ⟨h1, h2, h3, -⟩; exfalso; omega
    · rw [if_neg hc]
      simp only [Except.ok.injEq, Prod.mk.injEq]
      constructor
      · rintro ⟨rfl, rfl⟩; refine ⟨?_, ?_, ?_, rfl, rfl⟩ <;> omega
      · rintro ⟨-, -, -, h⟩; exact h
  by_cases h0 : m0 < 0
  · rw [if_pos h0]
    refine (key _ _).trans ?_
    constructor
    · rintro ⟨h1, h2, h3, h4, h5⟩; omega
    · rintro ⟨h1, h2, h3, h4⟩; omega
  · rw [if_neg h0]
    by_cases h1 : m1 < 0
    · rw [if_pos h1]
      refine (key _ _).trans ?_
      constructor
      · rintro ⟨h1, h2, h3, h4, h5⟩; omega
      · rintro ⟨h1, h2, h3, h4⟩; omega
    · rw [if_neg h1]
      refine (key _ _).trans ?_
      constructor
      · rintro ⟨h1, h2, h3, h4, h5⟩; omega
      · rintro ⟨h1, h2, h3, h4⟩; omega

/-- **C16.** Every other outcome is `ValueError`, in particular for a sequence of another length
and when both entries are negative. -/
theorem C16_validate_rejects (mom : List ℤ) (orig : ℤ) :
    ((∃ p, validateMom mom orig = .ok p) ∨ validateMom mom orig = .error .valueError) ∧
    (mom.length ≠ 2 → validateMom mom orig = .error .valueError) ∧
    (∀ m0 m1, m0 < 0 → m1 < 0 → validateMom [m0, m1] orig = .error .valueError) := by
  have first : ∀ mom, (∃ p, validateMom mom orig = .ok p) ∨
      validateMom mom orig = .error .valueError := by
    intro mom
    match mom with
    | [] | [_] | _ :: _ :: _ :: _ => right; rfl
    | [m0, m1] =>
      unfold validateMom
      simp only
      generalize (if m0 < 0 then (orig - m1, m1) else if m1 < 0 then (m0, orig - m0)
        else (m0, m1)) = out
      by_cases h : out.1 < 1 ∨ out.2 < 1 ∨ out.1 + out.2 > orig
      · right; rw [if_pos h]
      · left; exact ⟨out, by rw [if_neg h]⟩
  refine ⟨first mom, fun hl => ?_, fun m0 m1 h0 h1 => ?_⟩
  · match mom with
    | [] | [_] | _ :: _ :: _ :: _ => rfl
    | [m0, m1] => exact absurd rfl hl
  · rcases first [m0, m1] with ⟨p, hp⟩ | h
    · have := (C16_validate_accepts m0 m1 orig p.1 p.2).1 hp
      omega
    · exact h

end

/-! ## non-vacuity -/

/-- Central moments of the values 2 (weight 1) and 4 (weight 3), order 3. -/
def exCentral : Mom ℚ := fun n => [4, 7/2, 3/4, -3/4].getD n 0

example : weight exL ≠ 0 ∧ IsMoments 3 exL exCentral := by
  refine ⟨by decide +kernel, by decide +kernel, by decide +kernel, ?_⟩
  intro n h2 h3
  obtain rfl | rfl : n = 2 ∨ n = 3 := by omega
  · decide +kernel
  · decide +kernel

/-- Its raw moments: 7/2, 13, 50. -/
example : (List.range 4).map (centralToRaw 3 exCentral (fun _ => 9)) = [4, 7/2, 13, 50] := by
  decide +kernel

example : (List.range 4).map (rawToCentral 3 (fun n => [4, 7/2, 13, 50].getD n (0 : ℚ)) (fun _ => 9)) =
    [4, 7/2, 3/4, -3/4] := by
  decide +kernel

example : weight2 exL2 ≠ 0 ∧ ∃ c, IsComoments 2 2 exL2 c :=
  ⟨by decide +kernel, exists_isComoments 2 2 exL2⟩

example : (List.range 3).map (fun i => (List.range 3).map
    (rawToCentralCov 2 2 (centralToRawCov 2 2 exC (fun _ _ => 7)) (fun _ _ => 8) i)) =
    [[2, 1, 3], [4, 5, 6], [7, 8, 9]] := by
  decide +kernel

/-- The documented `mom=(2, -1)` of order 4 means `(2, 2)`. -/
example : validateMom [2, -1] 4 = .ok (2, 2) ∧ validateMom [-1, 1] 4 = .ok (3, 1) ∧
    validateMom [2, 3] 4 = .error .valueError := by decide

example : (List.range 3).map (fun i => (List.range 3).map
    (momentsToComoments 2 2 (fun n => [10, 5, 7, 8, 9].getD n (0 : ℚ)) (fun _ _ => 0) i)) =
    [[10, 5, 7], [5, 7, 8], [7, 8, 9]] := by
  decide +kernel

end Cmomy
