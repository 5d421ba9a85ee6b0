import Verif.Lemmas.Grouped
import Mathlib.Data.List.Flatten
import Mathlib.Algebra.Order.Ring.Nat

/-!
# Block labels: list lemmas
-/

namespace Cmomy.Block

open Spec

theorem length_arangeRepeat (nb b : ℕ) : (arangeRepeat nb b).length = nb * b := by
  unfold arangeRepeat
  induction nb with
  | zero => simp
  | succ n ih =>
    rw [List.range_succ, List.flatMap_append, List.length_append, ih]
    simp [Nat.succ_mul]

theorem arangeRepeat_succ (nb b : ℕ) :
    arangeRepeat (nb + 1) b = arangeRepeat nb b ++ List.replicate b (nb : ℤ) := by
  unfold arangeRepeat
  rw [List.range_succ, List.flatMap_append]
  simp

theorem getElem?_arangeRepeat (nb b i : ℕ) (hb : 0 < b) (hi : i < nb * b) :
    (arangeRepeat nb b)[i]? = some ((i / b : ℕ) : ℤ) := by
  induction nb with
  | zero => simp at hi
  | succ n ih =>
    rw [arangeRepeat_succ]
    by_cases h : i < n * b
    · rw [List.getElem?_append_left (by rw [length_arangeRepeat]; exact h), ih h]
    · rw [List.getElem?_append_right (by rw [length_arangeRepeat]; omega), length_arangeRepeat,
        List.getElem?_replicate]
      rw [Nat.succ_mul] at hi
      rw [if_pos (by omega)]
      congr 2
      symm
      rw [Nat.div_eq_iff hb]
      constructor
      · omega
      · omega

theorem count_arangeRepeat (nb b : ℕ) (v : ℤ) :
    (arangeRepeat nb b).count v = if 0 ≤ v ∧ v < nb then b else 0 := by
  induction nb with
  | zero =>
    rw [if_neg (by push_cast; omega)]
    simp [arangeRepeat]
  | succ n ih =>
    rw [arangeRepeat_succ, List.count_append, ih, List.count_replicate]
    by_cases h : v = n
    · subst h; simp
    · have : ((n : ℤ) == v) = false := by simpa using fun h' => h h'.symm
      rw [this]
      have hiff : (0 ≤ v ∧ v < ((n + 1 : ℕ) : ℤ)) ↔ (0 ≤ v ∧ v < n) := by
        push_cast; omega
      simp only [hiff, Bool.false_eq_true, if_false, Nat.add_zero]

/-- The labels, list form, for `1 ≤ block ≤ ndat` and a known mode. -/
theorem blockBy_eq (ndat block : ℕ) (mode : Mode) (h1 : 1 ≤ block) (h2 : block ≤ ndat)
    (hm : mode ≠ .unknown) :
    blockBy ndat block mode = .ok (match mode with
      | .dropFirst => List.replicate (ndat % block) (-1) ++ arangeRepeat (ndat / block) block
      | .dropLast => arangeRepeat (ndat / block) block ++ List.replicate (ndat % block) (-1)
      | .expandFirst => List.replicate (ndat % block) 0 ++ arangeRepeat (ndat / block) block
      | .expandLast => arangeRepeat (ndat / block) block ++
          List.replicate (ndat % block) ((ndat / block - 1 : ℕ) : ℤ)
      | .unknown => []) := by
  have hdm := Nat.div_add_mod ndat block
  rw [Nat.mul_comm] at hdm
  have hpos : 0 < ndat / block := Nat.div_pos h2 h1
  unfold blockBy
  by_cases he : block = ndat
  · subst he
    rw [if_pos (Or.inr rfl)]
    have hd : block / block = 1 := Nat.div_self h1
    have hmod : block % block = 0 := Nat.mod_self block
    have ha : arangeRepeat 1 block = List.replicate block 0 := by
      rw [arangeRepeat_succ]; simp [arangeRepeat]
    cases mode <;> first | exact absurd rfl hm | simp_all
  · rw [if_neg (by omega), if_neg (by omega), if_neg hm]
    have hq : ((ndat : ℤ) / (block : ℤ)).toNat = ndat / block := by
      rw [← Int.natCast_ediv]; rfl
    simp only [hq, Int.toNat_natCast, length_arangeRepeat]
    have hshift : ndat - ndat / block * block = ndat % block := by omega
    rw [hshift]
    by_cases hr : ndat / block * block = ndat
    · rw [if_pos hr]
      have : ndat % block = 0 := by omega
      rw [this]
      cases mode <;> first | exact absurd rfl hm | simp_all
    · rw [if_neg hr]
      cases mode with
      | unknown => exact absurd rfl hm
      | dropFirst => simp [padConst]
      | dropLast => simp [padConst]
      | expandFirst =>
        simp only [reduceCtorEq, or_true, or_false, if_true, if_false, padEdge]
        have : (arangeRepeat (ndat / block) block).headD 0 = 0 := by
          have := getElem?_arangeRepeat (ndat / block) block 0 h1 (Nat.mul_pos hpos h1)
          rw [List.headD_eq_head?_getD, List.head?_eq_getElem?, this]
          simp
        rw [this]
        simp
      | expandLast =>
        simp only [reduceCtorEq, or_false, if_false, padEdge]
        have : (arangeRepeat (ndat / block) block).getLastD 0 = ((ndat / block - 1 : ℕ) : ℤ) := by
          obtain ⟨n, hn⟩ : ∃ n, ndat / block = n + 1 := ⟨ndat / block - 1, by omega⟩
          rw [hn, arangeRepeat_succ]
          rw [List.getLastD_eq_getLast?, List.getLast?_append, List.getLast?_replicate]
          rw [if_neg (by omega)]
          simp
        rw [this]
        simp

end Cmomy.Block
