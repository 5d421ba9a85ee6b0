import Verif.Lemmas.Reduce
import Mathlib.Algebra.Field.Rat
import Mathlib.Algebra.Order.Ring.Rat

/-!
# C01, C02, C03, C05, C09: accumulation of values and merging

`kernel1 order` is the one-variable code, `kernel2 o0 o1` the comoment code.
The vocabulary (`Sample`, `weight`, `mean`, `central`, `IsMoments`, `Holds`, ...) is in
`Verif/Spec/Moments.lean`.
-/

namespace Cmomy

open Spec

section field

variable {K : Type*} [Field K] [DecidableEq K] [CharZero K]

private theorem admissible_exists {order : ℕ} (ho : 1 ≤ order) {L : List (Sample K)}
    (hL : Admissible L) : ∃ out, (kernel1 order).reduceValsFromZero (toVals L) = some out := by
  rw [← Option.ne_none_iff_exists']
  intro hn
  obtain ⟨pre, p, post, e, hp, hz⟩ := ((lawful1 order ho).reduceVals_eq_none_iff _ _).1 hn
  obtain ⟨pre', rest, rfl, rfl, e2⟩ := List.map_eq_append_iff.1 e
  obtain ⟨s, post', rfl, rfl, rfl⟩ := List.map_eq_cons_iff.1 e2
  refine hL pre' s post' rfl hp ?_
  rw [(lawful1 order ho).weight_zero, zero_add] at hz
  simpa [Spec.weight, Function.comp_def] using hz

private theorem admissible_exists2 {o0 o1 : ℕ} (h0 : 1 ≤ o0) (h1 : 1 ≤ o1) {L : List (Sample2 K)}
    (hL : Admissible2 L) : ∃ out, (kernel2 o0 o1).reduceValsFromZero (toVals2 L) = some out := by
  rw [← Option.ne_none_iff_exists']
  intro hn
  obtain ⟨pre, p, post, e, hp, hz⟩ := ((lawful2 o0 o1 h0 h1).reduceVals_eq_none_iff _ _).1 hn
  obtain ⟨pre', rest, rfl, rfl, e2⟩ := List.map_eq_append_iff.1 e
  obtain ⟨s, post', rfl, rfl, rfl⟩ := List.map_eq_cons_iff.1 e2
  refine hL pre' s post' rfl hp ?_
  rw [(lawful2 o0 o1 h0 h1).weight_zero, zero_add] at hz
  simpa [Spec.weight2, Function.comp_def] using hz

/-- **C01.** Accumulating any admissible stream of weighted values from zeros gives weight, mean
and all central moments exactly, for every order. -/
theorem C01_reduce_vals_exact {order : ℕ} (ho : 1 ≤ order) (L : List (Sample K))
    (hL : Admissible L) (hW : weight L ≠ 0) :
    ∃ out, (kernel1 order).reduceValsFromZero (toVals L) = some out ∧ IsMoments order L out := by
  obtain ⟨out, e⟩ := admissible_exists ho hL
  refine ⟨out, e, (isMoments_iff_raw ho hW).2 fun n => ?_⟩
  rw [(lawful1 order ho).reduceVals_raw e, (lawful1 order ho).raw_zero, zero_add, vsum1_eq]

/-- The weight of a stream whose total weight vanishes: the code reports weight 0. -/
theorem C01_zero_total {order : ℕ} (ho : 1 ≤ order) (L : List (Sample K)) (hW : weight L = 0)
    (out : Mom K) (e : (kernel1 order).reduceValsFromZero (toVals L) = some out) : out 0 = 0 := by
  have h := congrFun ((lawful1 order ho).reduceVals_raw e) (lawful1 (K := K) order ho).i0
  rw [(lawful1 order ho).raw_i0] at h
  rw [Pi.add_apply, (lawful1 order ho).raw_zero, vsum1_eq] at h
  simpa [lawful1, wsum_one, hW, kernel1] using h

/-- **C01**, continuing from an accumulator that already stands for samples `S`. -/
theorem C01_push_vals_onto {order : ℕ} (ho : 1 ≤ order) (S L : List (Sample K)) (acc out : Mom K)
    (hacc : Holds order S acc)
    (e : (kernel1 order).reduceVals (toVals L) acc = some out) : Holds order (S ++ L) out := by
  rw [holds_iff_raw ho] at hacc ⊢
  intro n
  rw [(lawful1 order ho).reduceVals_raw e, Pi.add_apply, hacc n, vsum1_eq, wsum_append]

/-- **C02.** Comoments of weighted pairs. -/
theorem C02_reduce_vals_cov_exact {o0 o1 : ℕ} (h0 : 1 ≤ o0) (h1 : 1 ≤ o1) (L : List (Sample2 K))
    (hL : Admissible2 L) (hW : weight2 L ≠ 0) :
    ∃ out, (kernel2 o0 o1).reduceValsFromZero (toVals2 L) = some out ∧
      IsComoments o0 o1 L out := by
  obtain ⟨out, e⟩ := admissible_exists2 h0 h1 hL
  refine ⟨out, e, (isComoments_iff_raw h0 h1 hW).2 fun n => ?_⟩
  rw [(lawful2 o0 o1 h0 h1).reduceVals_raw e, (lawful2 o0 o1 h0 h1).raw_zero, zero_add, vsum2_eq]

/-- **C02**, continuing from an accumulator that already stands for samples `S`. -/
theorem C02_push_vals_onto {o0 o1 : ℕ} (h0 : 1 ≤ o0) (h1 : 1 ≤ o1) (S L : List (Sample2 K))
    (acc out : Com K) (hacc : Holds2 o0 o1 S acc)
    (e : (kernel2 o0 o1).reduceVals (toVals2 L) acc = some out) :
    Holds2 o0 o1 (S ++ L) out := by
  rw [holds2_iff_raw h0 h1] at hacc ⊢
  intro n
  rw [(lawful2 o0 o1 h0 h1).reduceVals_raw e, Pi.add_apply, hacc n, vsum2_eq, wsum2_append]

/-- **C03.** Pushing the moments `A` of samples `S` into the moments `B` of samples `T` gives the
moments of all samples together. -/
theorem C03_push_data_merges {order : ℕ} (ho : 1 ≤ order) (S T : List (Sample K)) (A B : Mom K)
    (hA : Holds order S A) (hB : Holds order T B) (hw : A 0 = 0 ∨ A 0 + B 0 ≠ 0) :
    ∃ out, pushData order A B = some out ∧ Holds order (T ++ S) out := by
  obtain ⟨out, e⟩ := (lawful1 (K := K) order ho).pushScale_exists (d := A) (s := 1) (o := B)
    (by simpa [kernel1, add_comm] using hw)
  have e' : pushData order A B = some out := by
    rw [← e]; exact (lawful1 (K := K) order ho).data_eq A B
  refine ⟨out, e', ?_⟩
  rw [holds_iff_raw ho] at hA hB ⊢
  intro n
  rw [(lawful1 order ho).pushScale_raw e, wsum_append, Pi.add_apply, hB n, one_smul, hA n]

/-- **C03** for regular arrays, in terms of `IsMoments` alone. -/
theorem C03_merge_moments {order : ℕ} (ho : 1 ≤ order) (S T : List (Sample K)) (A B : Mom K)
    (hA : IsMoments order S A) (hB : IsMoments order T B) (hS : weight S ≠ 0) (hT : weight T ≠ 0)
    (hST : weight (T ++ S) ≠ 0) :
    ∃ out, pushData order A B = some out ∧ IsMoments order (T ++ S) out := by
  obtain ⟨out, e, h⟩ := C03_push_data_merges ho S T A B (Or.inl ⟨hS, hA⟩) (Or.inl ⟨hT, hB⟩)
    (Or.inr (by rw [hA.weight, hB.weight, add_comm, ← weight_append]; exact hST))
  refine ⟨out, e, ?_⟩
  rcases h with ⟨_, h⟩ | ⟨_, hz⟩
  · exact h
  · exact absurd (by rw [← wsum_one]; simpa using hz 0 (Nat.zero_le _)) hST

/-- **C03**, comoments. -/
theorem C03_push_data_merges_cov {o0 o1 : ℕ} (h0 : 1 ≤ o0) (h1 : 1 ≤ o1) (S T : List (Sample2 K))
    (A B : Com K) (hA : Holds2 o0 o1 S A) (hB : Holds2 o0 o1 T B)
    (hw : A 0 0 = 0 ∨ A 0 0 + B 0 0 ≠ 0) :
    ∃ out, pushDataCov o0 o1 A B = some out ∧ Holds2 o0 o1 (T ++ S) out := by
  obtain ⟨out, e⟩ := (lawful2 (K := K) o0 o1 h0 h1).pushScale_exists (d := A) (s := 1) (o := B)
    (by simpa [kernel2, add_comm] using hw)
  have e' : pushDataCov o0 o1 A B = some out := by
    rw [← e]; exact (lawful2 (K := K) o0 o1 h0 h1).data_eq A B
  refine ⟨out, e', ?_⟩
  rw [holds2_iff_raw h0 h1] at hA hB ⊢
  intro n
  rw [(lawful2 o0 o1 h0 h1).pushScale_raw e, wsum2_append, Pi.add_apply, hB n, one_smul, hA n]

/-- **C03** for regular comoment arrays. -/
theorem C03_merge_comoments {o0 o1 : ℕ} (h0 : 1 ≤ o0) (h1 : 1 ≤ o1) (S T : List (Sample2 K))
    (A B : Com K) (hA : IsComoments o0 o1 S A) (hB : IsComoments o0 o1 T B) (hS : weight2 S ≠ 0)
    (hT : weight2 T ≠ 0) (hST : weight2 (T ++ S) ≠ 0) :
    ∃ out, pushDataCov o0 o1 A B = some out ∧ IsComoments o0 o1 (T ++ S) out := by
  obtain ⟨out, e, h⟩ := C03_push_data_merges_cov h0 h1 S T A B (Or.inl ⟨hS, hA⟩)
    (Or.inl ⟨hT, hB⟩)
    (Or.inr (by rw [hA.weight, hB.weight, add_comm, ← weight2_append]; exact hST))
  refine ⟨out, e, ?_⟩
  rcases h with ⟨_, h⟩ | ⟨_, hz⟩
  · exact h
  · exact absurd (by rw [← wsum2_one]; simpa using hz 0 0 (Nat.zero_le _) (Nat.zero_le _)) hST

omit [CharZero K] in
/-- **C05.** A zero-weight push changes nothing, whatever the value, the data or the scale. -/
theorem C05_zero_weight_push (order : ℕ) (x scale : K) (data out : Mom K) :
    pushVal order x 0 out = some out ∧
    (data 0 = 0 → pushData order data out = some out) ∧
    (data 0 * scale = 0 → pushDataScale order data scale out = some out) := by
  refine ⟨?_, fun h => ?_, fun h => ?_⟩
  · simp [pushVal]
  · simp [pushData, pushDataBody, h]
  · simp [pushDataScale, pushDataBody, h]

omit [CharZero K] in
/-- **C05**, comoments. -/
theorem C05_zero_weight_push_cov (o0 o1 : ℕ) (x y scale : K) (data out : Com K) :
    pushValCov o0 o1 x y 0 out = some out ∧
    (data 0 0 = 0 → pushDataCov o0 o1 data out = some out) ∧
    (data 0 0 * scale = 0 → pushDataScaleCov o0 o1 data scale out = some out) := by
  refine ⟨?_, fun h => ?_, fun h => ?_⟩
  · simp [pushValCov]
  · simp [pushDataCov, pushDataCovBody, h]
  · simp [pushDataScaleCov, pushDataCovBody, h]

/-- **C05.** A reduction is the reduction of the non-zero-weight records alone, in every entry,
even where it divides by zero. -/
theorem C05_reduce_ignores_zero_weight {order : ℕ} (ho : 1 ≤ order) (xs : List (K × K))
    (data : List (Mom K)) (out : Mom K) :
    (kernel1 order).reduceVals xs out =
      (kernel1 order).reduceVals (xs.filter (fun p => p.2 ≠ 0)) out ∧
    (kernel1 order).reduceData data out =
      (kernel1 order).reduceData (data.filter (fun d => d 0 ≠ 0)) out :=
  ⟨(lawful1 order ho).reduceVals_filter xs out, (lawful1 order ho).reduceData_filter data out⟩

/-- **C05**, comoments. -/
theorem C05_reduce_ignores_zero_weight_cov {o0 o1 : ℕ} (h0 : 1 ≤ o0) (h1 : 1 ≤ o1)
    (xs : List ((K × K) × K)) (data : List (Com K)) (out : Com K) :
    (kernel2 o0 o1).reduceVals xs out =
      (kernel2 o0 o1).reduceVals (xs.filter (fun p => p.2 ≠ 0)) out ∧
    (kernel2 o0 o1).reduceData data out =
      (kernel2 o0 o1).reduceData (data.filter (fun d => d 0 0 ≠ 0)) out :=
  ⟨(lawful2 o0 o1 h0 h1).reduceVals_filter xs out,
    (lawful2 o0 o1 h0 h1).reduceData_filter data out⟩

/-- **C09.** An accumulation divides by zero exactly when some record of non-zero weight brings
the running weight to zero. -/
theorem C09_no_result_iff {order : ℕ} (ho : 1 ≤ order) (L : List (Sample K)) (out : Mom K) :
    (kernel1 order).reduceVals (toVals L) out = none ↔
      ∃ pre s post, L = pre ++ s :: post ∧ s.w ≠ 0 ∧ out 0 + weight (pre ++ [s]) = 0 := by
  rw [(lawful1 order ho).reduceVals_eq_none_iff]
  constructor
  · rintro ⟨pre, p, post, e, hp, hz⟩
    obtain ⟨pre', rest, rfl, rfl, e2⟩ := List.map_eq_append_iff.1 e
    obtain ⟨s, post', rfl, rfl, rfl⟩ := List.map_eq_cons_iff.1 e2
    exact ⟨pre', s, post', rfl, hp, by simpa [Spec.weight, Function.comp_def, kernel1] using hz⟩
  · rintro ⟨pre, s, post, rfl, hp, hz⟩
    exact ⟨toVals pre, (s.x, s.w), toVals post, by simp [toVals], hp,
      by simpa [Spec.weight, Function.comp_def, kernel1, toVals] using hz⟩

/-- **C09**, comoments. -/
theorem C09_no_result_iff_cov {o0 o1 : ℕ} (h0 : 1 ≤ o0) (h1 : 1 ≤ o1) (L : List (Sample2 K))
    (out : Com K) :
    (kernel2 o0 o1).reduceVals (toVals2 L) out = none ↔
      ∃ pre s post, L = pre ++ s :: post ∧ s.w ≠ 0 ∧ out 0 0 + weight2 (pre ++ [s]) = 0 := by
  rw [(lawful2 o0 o1 h0 h1).reduceVals_eq_none_iff]
  constructor
  · rintro ⟨pre, p, post, e, hp, hz⟩
    obtain ⟨pre', rest, rfl, rfl, e2⟩ := List.map_eq_append_iff.1 e
    obtain ⟨s, post', rfl, rfl, rfl⟩ := List.map_eq_cons_iff.1 e2
    exact ⟨pre', s, post', rfl, hp, by simpa [Spec.weight2, Function.comp_def, kernel2] using hz⟩
  · rintro ⟨pre, s, post, rfl, hp, hz⟩
    exact ⟨toVals2 pre, ((s.x, s.y), s.w), toVals2 post, by simp [toVals2], hp,
      by simpa [Spec.weight2, Function.comp_def, kernel2, toVals2] using hz⟩

/-- **C09**, moment arrays. -/
theorem C09_reduce_data_no_result_iff {order : ℕ} (ho : 1 ≤ order) (data : List (Mom K))
    (out : Mom K) :
    (kernel1 order).reduceData data out = none ↔
      ∃ pre d post, data = pre ++ d :: post ∧ d 0 ≠ 0 ∧
        out 0 + ((pre ++ [d]).map (fun m => m 0)).sum = 0 :=
  (lawful1 order ho).reduceData_eq_none_iff data out

/-- **C09**, comoment arrays. -/
theorem C09_reduce_data_no_result_iff_cov {o0 o1 : ℕ} (h0 : 1 ≤ o0) (h1 : 1 ≤ o1)
    (data : List (Com K)) (out : Com K) :
    (kernel2 o0 o1).reduceData data out = none ↔
      ∃ pre d post, data = pre ++ d :: post ∧ d 0 0 ≠ 0 ∧
        out 0 0 + ((pre ++ [d]).map (fun m => m 0 0)).sum = 0 :=
  (lawful2 o0 o1 h0 h1).reduceData_eq_none_iff data out

end field

section ordered

variable {K : Type*} [Field K] [LinearOrder K] [IsStrictOrderedRing K]

/-- Non-negative weights are admissible. -/
theorem admissible_of_nonneg {L : List (Sample K)} (hL : ∀ s ∈ L, 0 ≤ s.w) : Admissible L := by
  rintro pre s post rfl hs hz
  have h1 : 0 ≤ weight pre := List.sum_nonneg (by
    intro x hx; obtain ⟨t, ht, rfl⟩ := List.mem_map.1 hx; exact hL t (by simp [ht]))
  have h2 : 0 < s.w := lt_of_le_of_ne (hL s (by simp)) (Ne.symm hs)
  rw [weight_append] at hz
  have h3 : weight [s] = s.w := by simp [Spec.weight]
  rw [h3] at hz
  linarith

theorem admissible2_of_nonneg {L : List (Sample2 K)} (hL : ∀ s ∈ L, 0 ≤ s.w) :
    Admissible2 L := by
  rintro pre s post rfl hs hz
  have h1 : 0 ≤ weight2 pre := List.sum_nonneg (by
    intro x hx; obtain ⟨t, ht, rfl⟩ := List.mem_map.1 hx; exact hL t (by simp [ht]))
  have h2 : 0 < s.w := lt_of_le_of_ne (hL s (by simp)) (Ne.symm hs)
  rw [weight2_append] at hz
  have h3 : weight2 [s] = s.w := by simp [Spec.weight2]
  rw [h3] at hz
  linarith

/-- **C01** for non-negative weights with positive total. -/
theorem C01_reduce_vals_exact_nonneg {order : ℕ} (ho : 1 ≤ order) (L : List (Sample K))
    (hL : ∀ s ∈ L, 0 ≤ s.w) (hW : 0 < weight L) :
    ∃ out, (kernel1 order).reduceValsFromZero (toVals L) = some out ∧ IsMoments order L out :=
  C01_reduce_vals_exact ho L (admissible_of_nonneg hL) hW.ne'

/-- **C02** for non-negative weights with positive total. -/
theorem C02_reduce_vals_cov_exact_nonneg {o0 o1 : ℕ} (h0 : 1 ≤ o0) (h1 : 1 ≤ o1)
    (L : List (Sample2 K)) (hL : ∀ s ∈ L, 0 ≤ s.w) (hW : 0 < weight2 L) :
    ∃ out, (kernel2 o0 o1).reduceValsFromZero (toVals2 L) = some out ∧
      IsComoments o0 o1 L out :=
  C02_reduce_vals_cov_exact h0 h1 L (admissible2_of_nonneg hL) hW.ne'

/-- **C09.** With non-negative weights accumulation never divides by zero. -/
theorem C09_nonneg_has_result {order : ℕ} (ho : 1 ≤ order) (L : List (Sample K))
    (hL : ∀ s ∈ L, 0 ≤ s.w) : (kernel1 order).reduceValsFromZero (toVals L) ≠ none := by
  obtain ⟨out, e⟩ := admissible_exists ho (admissible_of_nonneg hL)
  rw [e]; simp

/-- **C09**, comoments. -/
theorem C09_nonneg_has_result_cov {o0 o1 : ℕ} (h0 : 1 ≤ o0) (h1 : 1 ≤ o1) (L : List (Sample2 K))
    (hL : ∀ s ∈ L, 0 ≤ s.w) : (kernel2 o0 o1).reduceValsFromZero (toVals2 L) ≠ none := by
  obtain ⟨out, e⟩ := admissible_exists2 h0 h1 (admissible2_of_nonneg hL)
  rw [e]; simp

end ordered

/-! ### The hypotheses are met by concrete non-trivial cases -/

/-- Three samples, one of them with weight zero. -/
def exL : List (Sample ℚ) := [⟨1, 2⟩, ⟨0, 7⟩, ⟨3, 4⟩]
/-- Signed weights. -/
def exSigned : List (Sample ℚ) := [⟨3, 2⟩, ⟨-1, 5⟩, ⟨2, -1⟩]
/-- Pairs. -/
def exL2 : List (Sample2 ℚ) := [⟨1, 2, 3⟩, ⟨2, -1, 1⟩, ⟨1, 0, 5⟩]

example : (∀ s ∈ exL, 0 ≤ s.w) ∧ 0 < weight exL ∧ Admissible exL :=
  ⟨by decide +kernel, by decide +kernel, admissible_of_nonneg (by decide +kernel)⟩

example : Admissible exSigned ∧ weight exSigned ≠ 0 := by
  refine ⟨?_, by decide +kernel⟩
  intro pre s post e hs
  match pre, e with
  | [], e => obtain ⟨rfl, rfl⟩ := by simpa [exSigned] using e
             decide +kernel
  | [a], e => obtain ⟨rfl, rfl, rfl⟩ := by simpa [exSigned] using e
              decide +kernel
  | [a, b], e => obtain ⟨rfl, rfl, rfl, rfl⟩ := by simpa [exSigned] using e
                 decide +kernel
  | a :: b :: c :: rest, e => simp [exSigned] at e

example : (∀ s ∈ exL2, 0 ≤ s.w) ∧ 0 < weight2 exL2 := by decide +kernel

/-- The model computes: mean 7/2, variance 3/4, third central moment -3/4. -/
example : ((kernel1 3).reduceValsFromZero (toVals exL)).map (fun m => [m 0, m 1, m 2, m 3]) =
    some [4, 7/2, 3/4, -3/4] := by decide +kernel

/-- Two regular arrays that can be merged (C03). -/
example : ∃ A B : Mom ℚ, Holds 3 exL A ∧ Holds 3 exSigned B ∧ A 0 + B 0 ≠ 0 := by
  obtain ⟨A, hA⟩ := exists_isMoments 3 exL
  obtain ⟨B, hB⟩ := exists_isMoments 3 exSigned
  refine ⟨A, B, Or.inl ⟨by decide +kernel, hA⟩, Or.inl ⟨by decide +kernel, hB⟩, ?_⟩
  rw [hA.weight, hB.weight]
  decide +kernel

/-- A zero-weight record with arbitrary other entries (C05). -/
example : (fun n => if n = 0 then 0 else 17 : Mom ℚ) 0 = 0 := rfl

/-- Both sides of C09 occur. -/
example : (kernel1 2).reduceValsFromZero (toVals ([⟨1, 2⟩, ⟨-1, 3⟩] : List (Sample ℚ))) = none := by
  have := (C09_no_result_iff (K := ℚ) (order := 2) (by decide) [⟨1, 2⟩, ⟨-1, 3⟩] (fun _ => 0)).2
    ⟨[⟨1, 2⟩], ⟨-1, 3⟩, [], rfl, by decide +kernel, by decide +kernel⟩
  exact this

end Cmomy
