import Verif.Lemmas.Reduce
import Verif.Model.Tree
import Mathlib.Tactic.Module
import Mathlib.Tactic.Positivity

/-!
# Merge trees and repetition, generic part
-/

set_option linter.unusedSectionVars false

namespace Cmomy

variable {K V M ι : Type*} [Field K]

namespace Lawful

section ordered

variable [LinearOrder K] [IsStrictOrderedRing K] {k : Kernel K V M} (h : Lawful k ι)
include h

theorem rsum_zero_of_weights {l : List M} (hl : ∀ d ∈ l, k.weight d = 0) : h.rsum l = 0 := by
  induction l with
  | nil => rfl
  | cons d l ih =>
    rw [h.rsum_cons, h.raw_of_weight_zero (hl d List.mem_cons_self),
      ih (fun x hx => hl x (List.mem_cons_of_mem _ hx)), add_zero]

/-- The tree result is the flat result. -/
theorem evalTree_spec (t : MergeTree M) (ht : ∀ d ∈ t.records, 0 ≤ k.weight d) :
    ∃ r, k.evalTree t = some r ∧ h.raw r = h.rsum t.records ∧
      (k.weight r = 0 → r = k.zero) := by
  induction t with
  | leaf c =>
    obtain ⟨r, e⟩ := h.reduceData_exists (data := c) (o := k.zero) (by rw [h.weight_zero]) ht
    refine ⟨r, e, ?_, fun hz => ?_⟩
    · rw [h.reduceData_raw e, h.raw_zero, zero_add]; rfl
    · rw [h.reduceData_weight e, h.weight_zero, zero_add] at hz
      rw [h.reduceData_of_all_zero (l := c) (weights_zero_of_wsumD ht hz)] at e
      exact (Option.some.inj e).symm
  | node l r ihl ihr =>
    have hl : ∀ d ∈ l.records, 0 ≤ k.weight d := fun d hd => ht d (by simp [MergeTree.records, hd])
    have hr : ∀ d ∈ r.records, 0 ≤ k.weight d := fun d hd => ht d (by simp [MergeTree.records, hd])
    obtain ⟨a, ea, ra, za⟩ := ihl hl
    obtain ⟨b, eb, rb, zb⟩ := ihr hr
    have hwa : 0 ≤ k.weight a := by
      rw [← h.raw_i0, ra, h.rsum_i0]
      exact List.sum_nonneg (by intro x hx; obtain ⟨d, hd, rfl⟩ := List.mem_map.1 hx; exact hl d hd)
    have hwb : 0 ≤ k.weight b := by
      rw [← h.raw_i0, rb, h.rsum_i0]
      exact List.sum_nonneg (by intro x hx; obtain ⟨d, hd, rfl⟩ := List.mem_map.1 hx; exact hr d hd)
    have hex : k.weight a * 1 = 0 ∨ k.weight b + k.weight a * 1 ≠ 0 := by
      by_cases hz : k.weight a = 0
      · left; simp [hz]
      · right
        have : 0 < k.weight a := lt_of_le_of_ne hwa (Ne.symm hz)
        rw [mul_one]; positivity
    obtain ⟨c, ec⟩ := h.pushScale_exists hex
    refine ⟨c, ?_, ?_, fun hz => ?_⟩
    · simp only [Kernel.evalTree, ea, eb]
      exact (h.data_eq a b).trans ec
    · rw [h.pushScale_raw ec, ra, rb, one_smul, MergeTree.records, h.rsum_append, add_comm]
    · rw [h.pushScale_weight ec, mul_one] at hz
      have wa : k.weight a = 0 := by linarith
      have wb : k.weight b = 0 := by linarith
      rw [h.scale_skip _ _ _ (by simp [wa])] at ec
      cases ec
      exact zb wb

theorem evalTree_eqv_reduce (t : MergeTree M) (ht : ∀ d ∈ t.records, 0 ≤ k.weight d) (l : List M)
    (hl : t.records.Perm l) :
    ∃ r r', k.evalTree t = some r ∧ k.reduceDataFromZero l = some r' ∧ h.Eqv r r' := by
  obtain ⟨r, e, hr, hz⟩ := h.evalTree_spec t ht
  obtain ⟨r', e', hr', hz'⟩ := h.evalTree_spec (.leaf l)
    (fun d hd => ht d (hl.mem_iff.2 hd))
  refine ⟨r, r', e, e', ?_⟩
  have hraw : h.raw r = h.raw r' := by rw [hr, hr']; exact h.rsum_perm hl
  by_cases hw : k.weight r = 0
  · rw [hz hw, hz' (by rw [← h.weight_eq_of_raw hraw]; exact hw)]
    exact Eqv.refl _
  · exact h.eqv_of_raw hw hraw

/-- Pushing `n` times is pushing with scale `n`. -/
theorem reduceData_replicate (n : ℕ) (d o : M) (hd : 0 ≤ k.weight d) (ho : 0 ≤ k.weight o) :
    ∃ r r', k.reduceData (List.replicate n d) o = some r ∧ k.pushScale d n o = some r' ∧
      h.Eqv r r' := by
  obtain ⟨r, e⟩ := h.reduceData_exists (data := List.replicate n d) (o := o) ho
    (by intro x hx; rw [(List.mem_replicate.1 hx).2]; exact hd)
  have hmul : 0 ≤ k.weight d * (n : K) := mul_nonneg hd (Nat.cast_nonneg n)
  obtain ⟨r', e'⟩ := h.pushScale_exists (d := d) (s := (n : K)) (o := o) (by
    by_cases hz : k.weight d * (n : K) = 0
    · exact Or.inl hz
    · right
      have : 0 < k.weight d * (n : K) := lt_of_le_of_ne hmul (Ne.symm hz)
      positivity)
  refine ⟨r, r', e, e', ?_⟩
  have hrs : h.rsum (List.replicate n d) = (n : K) • h.raw d := by
    simp [rsum, List.map_replicate, List.sum_replicate, Nat.cast_smul_eq_nsmul]
  by_cases hz : k.weight r' = 0
  · have hw := h.pushScale_weight e'
    rw [hz] at hw
    have h0 : k.weight d * (n : K) = 0 := by linarith
    rw [h.scale_skip _ _ _ h0] at e'
    rcases mul_eq_zero.1 h0 with h1 | h1
    · rw [h.reduceData_of_all_zero (by
        intro x hx; rw [(List.mem_replicate.1 hx).2]; exact h1)] at e
      cases e; cases e'; exact Eqv.refl _
    · have : n = 0 := by exact_mod_cast h1
      subst this
      cases e; cases e'; exact Eqv.refl _
  · refine (h.eqv_of_raw hz ?_).symm
    rw [h.pushScale_raw e', h.reduceData_raw e, hrs]

end ordered

section
variable [DecidableEq K] {k : Kernel K V M} (h : Lawful k ι)
include h

/-- Push then push with scale `-1`. -/
theorem push_unpush (a b : M) (ha : k.weight a ≠ 0) (hab : k.weight a + k.weight b ≠ 0) :
    ∃ c r, k.pushData b a = some c ∧ k.pushScale b (-1) c = some r ∧ h.Eqv r a := by
  obtain ⟨c, ec⟩ := h.pushScale_exists (d := b) (s := 1) (o := a) (Or.inr (by simpa using hab))
  have hc : k.weight c = k.weight a + k.weight b := by rw [h.pushScale_weight ec, mul_one]
  have hback : k.weight c + k.weight b * (-1) = k.weight a := by rw [hc]; ring
  obtain ⟨r, er⟩ := h.pushScale_exists (d := b) (s := -1) (o := c)
    (Or.inr (by rw [hback]; exact ha))
  refine ⟨c, r, by rw [h.data_eq]; exact ec, er, h.eqv_of_raw ?_ ?_⟩
  · rw [h.pushScale_weight er, hback]; exact ha
  · rw [h.pushScale_raw er, h.pushScale_raw ec]; module

/-- Push with scale `-1` then push. -/
theorem unpush_push (a b : M) (ha : k.weight a ≠ 0) (hab : k.weight a - k.weight b ≠ 0) :
    ∃ c r, k.pushScale b (-1) a = some c ∧ k.pushData b c = some r ∧ h.Eqv r a := by
  obtain ⟨c, ec⟩ := h.pushScale_exists (d := b) (s := -1) (o := a)
    (Or.inr (by rw [mul_neg_one, ← sub_eq_add_neg]; exact hab))
  have hc : k.weight c = k.weight a - k.weight b := by rw [h.pushScale_weight ec]; ring
  have hback : k.weight c + k.weight b * 1 = k.weight a := by rw [hc]; ring
  obtain ⟨r, er⟩ := h.pushScale_exists (d := b) (s := 1) (o := c)
    (Or.inr (by rw [hback]; exact ha))
  refine ⟨c, r, ec, by rw [h.data_eq]; exact er, h.eqv_of_raw ?_ ?_⟩
  · rw [h.pushScale_weight er, hback]; exact ha
  · rw [h.pushScale_raw er, h.pushScale_raw ec]; module

end

end Lawful

end Cmomy
