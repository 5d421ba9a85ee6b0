import Verif.Model.Push
import Verif.Lemmas.Shift
import Verif.Lemmas.Fold
import Mathlib.Data.Nat.Choose.Basic
import Mathlib.Algebra.CharZero.Defs
import Mathlib.Data.Nat.Cast.Field
import Mathlib.Data.Nat.Choose.Cast
import Mathlib.Tactic.FieldSimp
import Mathlib.Tactic.LinearCombination

namespace Cmomy

open Finset

variable {K : Type*} [Field K] [DecidableEq K]

omit [DecidableEq K] in
theorem binom_eq_choose [CharZero K] (n k : ℕ) : (binom n k : K) = (n.choose k : K) := by
  unfold binom
  split_ifs with h1 h2
  · rw [Nat.cast_choose K h1.le]
  · subst h2; simp
  · rw [Nat.choose_eq_zero_of_lt (by omega)]; simp

section rangeDown

theorem mem_rangeDown {hi lo a : ℕ} : a ∈ rangeDown hi lo ↔ lo < a ∧ a ≤ hi := by
  unfold rangeDown
  rw [List.mem_map]
  constructor
  · rintro ⟨i, hi', rfl⟩
    rw [List.mem_range] at hi'
    omega
  · intro h
    exact ⟨hi - a, List.mem_range.2 (by omega), by omega⟩

theorem pairwise_rangeDown (hi lo : ℕ) : (rangeDown hi lo).Pairwise (fun p q => q < p) := by
  unfold rangeDown
  rw [List.pairwise_map]
  refine (List.pairwise_lt_range (n := hi - lo)).imp_of_mem ?_
  intro a b ha hb hab
  rw [List.mem_range] at ha hb
  omega

theorem nodup_rangeDown (hi lo : ℕ) : (rangeDown hi lo).Nodup :=
  (pairwise_rangeDown hi lo).imp (fun h => (Nat.ne_of_lt h).symm)

end rangeDown

/-- The exact combination formula: part `1-α` from the accumulator, part `α` from the data. -/
def combine (α δ : K) (out data : ℕ → K) (n : ℕ) : K :=
  (1 - α) * shift (-(α * δ)) (full out) n + α * shift ((1 - α) * δ) (full data) n

omit [DecidableEq K] in
theorem pushDataInner_fold [CharZero K] (a : ℕ) (δ α : K) (data out : Mom K) (j : ℕ) :
    (List.range j).foldl (pushDataInner a δ α (1 - α) data out) PAcc.init =
      { tmp := ∑ b ∈ range j, (a.choose b : K) * δ ^ b *
          ((-1) ^ b * α ^ b * (1 - α) * out (a - b) + (1 - α) ^ b * α * data (a - b))
        delta_b := δ ^ j
        alpha_b := α ^ j
        minus_b := (-1) ^ j
        one_alpha_b := (1 - α) ^ j } := by
  induction j with
  | zero => simp [PAcc.init]
  | succ j ih =>
    rw [List.range_succ, List.foldl_append, ih]
    simp only [List.foldl_cons, List.foldl_nil, pushDataInner, sum_range_succ, binom_eq_choose,
      pow_succ]

omit [DecidableEq K] in
theorem pushDataTmp_eq [CharZero K] (a : ℕ) (ha : 2 ≤ a) (δ α : K) (data out : Mom K) :
    pushDataTmp a δ α (1 - α) data out = combine α δ out data a := by
  unfold pushDataTmp combine
  rw [pushDataInner_fold, shift_full _ _ ha, shift_full _ _ ha]
  simp only
  obtain ⟨m, rfl⟩ : ∃ m, a = m + 2 := ⟨a - 2, by omega⟩
  have h2 : m + 2 - 1 = m + 1 := by omega
  rw [h2]
  have hs : ∑ b ∈ range (m + 1), ((m + 2).choose b : K) * δ ^ b *
      ((-1) ^ b * α ^ b * (1 - α) * out (m + 2 - b) + (1 - α) ^ b * α * data (m + 2 - b)) =
      (∑ b ∈ range (m + 1), (1 - α) * (((m + 2).choose b : K) * out (m + 2 - b) * (-(α * δ)) ^ b)) +
      ∑ b ∈ range (m + 1), α * (((m + 2).choose b : K) * data (m + 2 - b) * ((1 - α) * δ) ^ b) := by
    rw [← sum_add_distrib]
    refine sum_congr rfl fun b _ => ?_
    rw [neg_pow (α * δ), mul_pow α δ, mul_pow (1 - α) δ]; ring
  rw [hs, ← mul_sum, ← mul_sum, neg_pow (α * δ) (m + 2), mul_pow α δ, mul_pow (1 - α) δ (m + 2)]
  ring

omit [DecidableEq K] in
theorem pushValInner_eq (a : ℕ) (δ α β : K) (out : Mom K) :
    pushValInner a δ α β out = pushDataInner a δ α β (fun _ => 0) out := by
  funext s b
  simp [pushValInner, pushDataInner]

omit [DecidableEq K] in
theorem pushValTmp_eq (a : ℕ) (δ α β : K) (out : Mom K) :
    pushValTmp a δ α β out = pushDataTmp a δ α β (fun _ => 0) out := by
  unfold pushValTmp pushDataTmp
  rw [pushValInner_eq]

omit [DecidableEq K] in
theorem pushDataTmp_congr [CharZero K] {a : ℕ} (ha : 2 ≤ a) {δ α : K} {data data' out out' : Mom K}
    (ho : ∀ i, 2 ≤ i → i ≤ a → out i = out' i) (hd : ∀ i, 2 ≤ i → i ≤ a → data i = data' i) :
    pushDataTmp a δ α (1 - α) data out = pushDataTmp a δ α (1 - α) data' out' := by
  rw [pushDataTmp_eq a ha, pushDataTmp_eq a ha, combine, combine]
  congr 2
  · exact shift_congr fun i hi => full_congr_two fun h2 => ho i h2 hi
  · exact shift_congr fun i hi => full_congr_two fun h2 => hd i h2 hi

omit [DecidableEq K] in
/-- The descending in-place loop computes every entry from the initial content. -/
theorem pushData_loop [CharZero K] (order : ℕ) (δ α : K) (data out : Mom K) (n : ℕ) :
    (rangeDown order 2).foldl
      (fun out a => Function.update out a (pushDataTmp a δ α (1 - α) data out)) out n =
    if 2 < n ∧ n ≤ order then combine α δ out data n else out n := by
  have key := foldl_overwrite (S := Mom K) (ι := ℕ) (K := K) (fun s p => s p)
    (fun s p v => Function.update s p v) (by intro s p v q; simp [Function.update_apply])
    (fun p q => 2 ≤ q ∧ q ≤ p ∧ 2 < p)
    (fun a s => if 2 < a then pushDataTmp a δ α (1 - α) data s else 0)
    (by
      intro p s s' h
      split_ifs with hp
      · exact pushDataTmp_congr hp.le (fun i h2 hi => h i ⟨h2, hi, hp⟩) (fun _ _ _ => rfl)
      · rfl)
    (rangeDown order 2) (nodup_rangeDown _ _)
    ((pairwise_rangeDown _ _).imp (fun h => by omega)) out n
  have hcong : (rangeDown order 2).foldl
      (fun out a => Function.update out a (pushDataTmp a δ α (1 - α) data out)) out =
      (rangeDown order 2).foldl (fun s p => Function.update s p
        (if 2 < p then pushDataTmp p δ α (1 - α) data s else 0)) out := by
    refine List.foldl_ext _ _ _ ?_
    intro s a ha
    rw [if_pos (mem_rangeDown.1 ha).1]
  rw [hcong, key]
  by_cases h : 2 < n ∧ n ≤ order
  · rw [if_pos (mem_rangeDown.2 h), if_pos h, if_pos h.1, pushDataTmp_eq n h.1.le]
  · rw [if_neg (fun h' => h (mem_rangeDown.1 h')), if_neg h]

/-- Closed form of the push body. -/
def pushClosed (order : ℕ) (w : K) (data out : Mom K) : Mom K := fun n =>
  let α := w / (out 0 + w)
  let δ := data 1 - out 1
  if n = 0 then out 0 + w
  else if n = 1 then out 1 + δ * α
  else if n ≤ order then combine α δ out data n
  else out n

omit [DecidableEq K] in
theorem combine_two (α δ : K) (out data : Mom K) :
    combine α δ out data 2 = data 2 * α + (1 - α) * (out 2 + δ * (δ * α)) := by
  unfold combine
  rw [shift_full _ _ le_rfl, shift_full _ _ le_rfl]
  simp; ring

omit [DecidableEq K] in
theorem combine_congr {α δ : K} {out out' data data' : Mom K} {n : ℕ}
    (ho : ∀ i, 2 ≤ i → i ≤ n → out i = out' i) (hd : ∀ i, 2 ≤ i → i ≤ n → data i = data' i) :
    combine α δ out data n = combine α δ out' data' n := by
  unfold combine
  congr 2
  · exact shift_congr fun i hi => full_congr_two fun h2 => ho i h2 hi
  · exact shift_congr fun i hi => full_congr_two fun h2 => hd i h2 hi

theorem pushDataBody_eq [CharZero K] (order : ℕ) (h1 : 1 ≤ order) (w : K) (data out : Mom K) :
    pushDataBody order w data out =
      if w = 0 then some out
      else if out 0 + w = 0 then none
      else some (pushClosed order w data out) := by
  unfold pushDataBody
  by_cases hw : w = 0
  · simp [hw]
  by_cases h0 : out 0 + w = 0
  · simp [hw, h0]
  simp only [hw, h0, if_false, Function.update_self, ne_eq, one_ne_zero, not_false_eq_true,
    Function.update_of_ne]
  by_cases h3 : order = 1
  · subst h3
    simp only [if_true, Option.some.injEq]
    funext n
    unfold pushClosed
    by_cases hn0 : n = 0
    · subst hn0; simp
    by_cases hn1 : n = 1
    · subst hn1; simp
    have : ¬ n ≤ 1 := by omega
    simp [hn0, hn1, this]
  · simp only [h3, if_false, Option.some.injEq]
    funext n
    set α := w / (out 0 + w) with hα
    set δ := data 1 - out 1 with hδ
    set o1 := Function.update (Function.update out 0 (out 0 + w)) 1 (out 1 + δ * α) with ho1
    have ho1' : ∀ i, 2 ≤ i → o1 i = out i := by
      intro i hi
      rw [ho1, Function.update_of_ne (by omega), Function.update_of_ne (by omega)]
    unfold pushClosed
    simp only [← hα, ← hδ]
    by_cases hn2 : n = 2
    · subst hn2
      rw [Function.update_self, pushData_loop]
      simp only [lt_irrefl, false_and, if_false, OfNat.ofNat_ne_zero, OfNat.ofNat_ne_one]
      rw [ho1' 2 le_rfl, if_pos (by omega), combine_two]
    · rw [Function.update_of_ne hn2, pushData_loop]
      by_cases hn0 : n = 0
      · subst hn0; simp [ho1]
      by_cases hn1 : n = 1
      · subst hn1; simp [ho1]
      have h2n : 2 < n := by omega
      simp only [hn0, hn1, if_false, h2n, true_and]
      split_ifs with hle
      · exact combine_congr (fun i h2 _ => ho1' i h2) (fun _ _ _ => rfl)
      · exact ho1' n h2n.le

/-- A value `x` of weight `w` as a moment array: weight, value, zero central moments. -/
def singleton (x w : K) : Mom K := fun n => if n = 0 then w else if n = 1 then x else 0

theorem pushVal_eq_pushDataBody [CharZero K] (order : ℕ) (x w : K) (out : Mom K) :
    pushVal order x w out = pushDataBody order w (singleton x w) out := by
  unfold pushVal pushDataBody
  simp only [pushValTmp_eq]
  have hs2 : (singleton x w) 2 = 0 := rfl
  have hs1 : (singleton x w) 1 = x := rfl
  rw [hs1, hs2]
  by_cases hw : w = 0
  · simp [hw]
  by_cases h0 : out 0 + w = 0
  · simp [hw, h0]
  simp only [hw, if_false]
  by_cases h3 : order = 1
  · simp [h3]
  · simp only [h3, if_false]
    have : ∀ s : Mom K, (rangeDown order 2).foldl (fun out' a => Function.update out' a
        (pushDataTmp a (x - (Function.update out 0 (out 0 + w)) 1)
          (w / (Function.update out 0 (out 0 + w)) 0)
          (1 - w / (Function.update out 0 (out 0 + w)) 0) (fun _ => 0) out')) s =
        (rangeDown order 2).foldl (fun out' a => Function.update out' a
        (pushDataTmp a (x - (Function.update out 0 (out 0 + w)) 1)
          (w / (Function.update out 0 (out 0 + w)) 0)
          (1 - w / (Function.update out 0 (out 0 + w)) 0) (singleton x w) out')) s := by
      intro s
      refine List.foldl_ext _ _ _ ?_
      intro s a ha
      have h2 := (mem_rangeDown.1 ha).1
      congr 1
      refine pushDataTmp_congr h2.le (fun _ _ _ => rfl) ?_
      intro i hi _
      have hi0 : i ≠ 0 := by omega
      have hi1 : i ≠ 1 := by omega
      simp [singleton, hi0, hi1]
    rw [this]
    simp

end Cmomy
