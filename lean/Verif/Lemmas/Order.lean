import Verif.Lemmas.Bridge
import Verif.Model.Alias
import Mathlib.Algebra.CharZero.Defs

/-!
# Locality, order independence, transposition, marginals: pusher level
-/

namespace Cmomy

open Spec Finset

theorem _root_.Cmomy.Spec.OptRel.bind {α β γ δ : Type*} {R : α → β → Prop} {S : γ → δ → Prop} {a : Option α}
    {b : Option β} {f : α → Option γ} {g : β → Option δ} (hab : OptRel R a b)
    (hfg : ∀ x y, R x y → OptRel S (f x) (g y)) : OptRel S (a.bind f) (b.bind g) := by
  cases a <;> cases b <;> simp_all [OptRel]

/-- Folding related steps over one list. -/
theorem _root_.Cmomy.Spec.OptRel.foldlM {α β γ : Type*} {R : α → β → Prop} (f : α → γ → Option α)
    (g : β → γ → Option β) (l : List γ)
    (h : ∀ x y, R x y → ∀ c ∈ l, OptRel R (f x c) (g y c)) (a : α) (b : β) (hab : R a b) :
    OptRel R (l.foldlM f a) (l.foldlM g b) := by
  induction l generalizing a b with
  | nil => exact hab
  | cons c l ih =>
    rw [List.foldlM_cons, List.foldlM_cons]
    refine OptRel.bind (h a b hab c List.mem_cons_self) fun x y hxy => ?_
    exact ih (fun x y hxy c hc => h x y hxy c (List.mem_cons_of_mem _ hc)) x y hxy

variable {K : Type*} [Field K] [DecidableEq K] [CharZero K]

theorem pushDataBody_order {m n : ℕ} (hm : 1 ≤ m) (hmn : m ≤ n) (w : K) {d d' o o' : Mom K}
    (hd : ∀ i, 1 ≤ i → i ≤ m → d i = d' i) (ho : EqUpTo m o o') :
    OptRel (EqUpTo m) (pushDataBody m w d o) (pushDataBody n w d' o') := by
  rw [pushDataBody_eq m hm, pushDataBody_eq n (hm.trans hmn), ho 0 (by omega)]
  split_ifs with h0 h1
  · exact ho
  · trivial
  · intro i hi
    unfold pushClosed
    simp only [ho 0 (by omega), ho 1 hm, hd 1 le_rfl hm, hi, hi.trans hmn, if_true]
    rw [combine_congr (fun j _ hj => ho j (by omega)) (fun j h2 hj => hd j (by omega) (by omega))]

theorem pushDataCovBody_order {m0 m1 n0 n1 : ℕ} (hm0 : 1 ≤ m0) (hm1 : 1 ≤ m1) (hmn0 : m0 ≤ n0)
    (hmn1 : m1 ≤ n1) (w : K) {d d' o o' : Com K}
    (hd : ∀ i j, i ≤ m0 → j ≤ m1 → 1 ≤ i + j → d i j = d' i j) (ho : EqUpTo2 m0 m1 o o') :
    OptRel (EqUpTo2 m0 m1) (pushDataCovBody m0 m1 w d o) (pushDataCovBody n0 n1 w d' o') := by
  rw [pushDataCovBody_eq m0 m1 hm0 hm1, pushDataCovBody_eq n0 n1 (hm0.trans hmn0) (hm1.trans hmn1),
    ho 0 0 (by omega) (by omega)]
  split_ifs with h0 h1
  · exact ho
  · trivial
  · intro i j hi hj
    unfold pushClosed2
    simp only [ho 0 0 (by omega) (by omega), ho 1 0 hm0 (by omega), ho 0 1 (by omega) hm1,
      hd 1 0 hm0 (by omega) (by omega), hd 0 1 (by omega) hm1 (by omega), hi, hj, hi.trans hmn0,
      hj.trans hmn1, and_self, if_true]
    rw [combine2_congr (fun a b ha hb _ => ho a b (by omega) (by omega))
      (fun a b ha hb h2 => hd a b (by omega) (by omega) (by omega))]

theorem pushDataBody_frame {m : ℕ} (hm : 1 ≤ m) (w : K) (d o r : Mom K)
    (e : pushDataBody m w d o = some r) (n : ℕ) (hn : m < n) : r n = o n := by
  rw [pushDataBody_eq m hm] at e
  split_ifs at e with h0 h1
  · cases e; rfl
  · cases e
    simp [pushClosed, show n ≠ 0 by omega, show n ≠ 1 by omega, show ¬ n ≤ m by omega]

theorem pushDataCovBody_frame {m0 m1 : ℕ} (h0 : 1 ≤ m0) (h1 : 1 ≤ m1) (w : K) (d o r : Com K)
    (e : pushDataCovBody m0 m1 w d o = some r) (i j : ℕ) (hn : m0 < i ∨ m1 < j) :
    r i j = o i j := by
  rw [pushDataCovBody_eq m0 m1 h0 h1] at e
  split_ifs at e with h0 h1
  · cases e; rfl
  · cases e
    simp [pushClosed2, show ¬ (i = 0 ∧ j = 0) by omega, show ¬ (i = 1 ∧ j = 0) by omega,
      show ¬ (i = 0 ∧ j = 1) by omega, show ¬ (i ≤ m0 ∧ j ≤ m1) by omega]

/-! ### transposition -/

omit [DecidableEq K] [CharZero K] in
theorem full2_transp (c : Com K) (i j : ℕ) : full2 (transp c) i j = full2 c j i := by
  unfold full2 transp
  simp only [add_comm i j]

omit [DecidableEq K] [CharZero K] in
theorem combine2_transp (α δ0 δ1 : K) (o d : Com K) (i j : ℕ) :
    combine2 α δ1 δ0 (transp o) (transp d) i j = combine2 α δ0 δ1 o d j i := by
  unfold combine2
  rw [shift2_swap _ _ (full2 o), shift2_swap _ _ (full2 d)]
  have hf : ∀ c : Com K, full2 (transp c) = fun a b => full2 c b a :=
    fun c => funext fun a => funext fun b => full2_transp c a b
  rw [hf, hf]

theorem pushDataCovBody_transp {o0 o1 : ℕ} (h0 : 1 ≤ o0) (h1 : 1 ≤ o1) (w : K) (d o : Com K) :
    pushDataCovBody o1 o0 w (transp d) (transp o) =
      (pushDataCovBody o0 o1 w d o).map transp := by
  rw [pushDataCovBody_eq o0 o1 h0 h1, pushDataCovBody_eq o1 o0 h1 h0]
  have e : transp o 0 0 = o 0 0 := rfl
  rw [e]
  split_ifs with hw hz
  · rfl
  · rfl
  · simp only [Option.map_some, Option.some.injEq]
    funext i j
    change pushClosed2 o1 o0 w (transp d) (transp o) i j = pushClosed2 o0 o1 w d o j i
    unfold pushClosed2
    simp only [combine2_transp]
    have t : ∀ (m : Com K) a b, transp m a b = m b a := fun _ _ _ => rfl
    simp only [t]
    by_cases c0 : i = 0 ∧ j = 0
    · simp [c0]
    by_cases c1 : i = 1 ∧ j = 0
    · simp [c1]
    by_cases c2 : i = 0 ∧ j = 1
    · simp [c2]
    have n0 : ¬ (j = 0 ∧ i = 0) := by omega
    have n1 : ¬ (j = 1 ∧ i = 0) := by omega
    have n2 : ¬ (j = 0 ∧ i = 1) := by omega
    simp only [c0, c1, c2, n0, n1, n2, if_false, and_comm]

/-! ### marginals -/

omit [DecidableEq K] [CharZero K] in
theorem full2_col (c : Com K) (i : ℕ) : full2 c i 0 = full (col c) i := by
  unfold full2 full col
  simp only [add_zero]

omit [DecidableEq K] [CharZero K] in
theorem combine2_col (α δ0 δ1 : K) (o d : Com K) (i : ℕ) :
    combine2 α δ0 δ1 o d i 0 = combine α δ0 (col o) (col d) i := by
  unfold combine2 combine shift2
  simp only [shift_at_zero, full2_col]

theorem pushDataCovBody_col {o0 o1 : ℕ} (h0 : 1 ≤ o0) (h1 : 1 ≤ o1) (w : K) (d o : Com K) :
    (pushDataCovBody o0 o1 w d o).map col = pushDataBody o0 w (col d) (col o) := by
  rw [pushDataCovBody_eq o0 o1 h0 h1, pushDataBody_eq o0 h0]
  have e : ∀ m : Com K, ∀ i, col m i = m i 0 := fun _ _ => rfl
  rw [e]
  split_ifs with hw hz
  · rfl
  · rfl
  · simp only [Option.map_some, Option.some.injEq]
    funext i
    rw [e]
    unfold pushClosed2 pushClosed
    simp only [combine2_col, e]
    by_cases c0 : i = 0
    · simp [c0]
    by_cases c1 : i = 1
    · simp [c1]
    simp [c0, c1]

theorem pushDataCovBody_row {o0 o1 : ℕ} (h0 : 1 ≤ o0) (h1 : 1 ≤ o1) (w : K) (d o : Com K) :
    (pushDataCovBody o0 o1 w d o).map row = pushDataBody o1 w (row d) (row o) := by
  have := pushDataCovBody_col h1 h0 w (transp d) (transp o)
  rw [pushDataCovBody_transp h0 h1, Option.map_map] at this
  exact this

/-! ### aliasing -/

omit [DecidableEq K] in
theorem pushDataTmp_same (a : ℕ) (ha : 2 ≤ a) (α : K) (o : Mom K) :
    pushDataTmp a 0 α (1 - α) o o = o a := by
  rw [pushDataTmp_eq a ha, combine]
  simp only [mul_zero, neg_zero, shift_zero, full_of_two_le _ ha]
  ring

omit [DecidableEq K] in
theorem pushDataCovTmp_same (i j : ℕ) (ha : 2 ≤ i + j) (α : K) (o : Com K) :
    pushDataCovTmp i j 0 0 α (1 - α) o o = o i j := by
  rw [pushDataCovTmp_eq, combine2]
  simp only [mul_zero, neg_zero, shift2_zero, full2_of_two_le _ ha]
  ring

theorem foldl_fixed {α β : Type*} (f : α → β → α) (l : List β) (a : α)
    (h : ∀ b ∈ l, f a b = a) : l.foldl f a = a := by
  induction l with
  | nil => rfl
  | cons b l ih =>
    rw [List.foldl_cons, h b List.mem_cons_self]
    exact ih fun c hc => h c (List.mem_cons_of_mem _ hc)

theorem pushDataAliased_eq (order : ℕ) (m : Mom K) (hm : m 0 ≠ 0) :
    pushDataAliased order m = some (Function.update m 0 (m 0 + m 0)) := by
  have hne : m 0 + m 0 ≠ 0 := by rw [← two_mul]; exact mul_ne_zero (by exact_mod_cast (Nat.cast_ne_zero (R := K)).2 (by decide : 2 ≠ 0)) hm
  unfold pushDataAliased
  simp only [hm, if_false, Function.update_self, hne, sub_self, zero_mul, add_zero]
  have e1 : Function.update (Function.update m 0 (m 0 + m 0)) 1
      (Function.update m 0 (m 0 + m 0) 1) = Function.update m 0 (m 0 + m 0) :=
    Function.update_eq_self _ _
  rw [e1]
  split_ifs with ho
  · rfl
  · rw [foldl_fixed]
    · congr 1
      rw [show ∀ v : Mom K, ∀ α : K, v 2 * α + (1 - α) * v 2 = v 2 by intro v α; ring]
      exact Function.update_eq_self _ _
    · intro a ha
      rw [pushDataTmp_same a (by have := mem_rangeDown.1 ha; omega)]
      exact Function.update_eq_self _ _

omit [DecidableEq K] [CharZero K] [Field K] in
theorem setAt_self (m : Com K) (i j : ℕ) : setAt m i j (m i j) = m := by
  unfold setAt
  rw [Function.update_eq_self, Function.update_eq_self]

theorem pushDataCovAliased_eq {o0 o1 : ℕ} (h0 : 1 ≤ o0) (h1 : 1 ≤ o1) (m : Com K)
    (hm : m 0 0 ≠ 0) :
    pushDataCovAliased o0 o1 m = some (setAt m 0 0 (m 0 0 + m 0 0)) := by
  have hne : m 0 0 + m 0 0 ≠ 0 := by rw [← two_mul]; exact mul_ne_zero (by exact_mod_cast (Nat.cast_ne_zero (R := K)).2 (by decide : 2 ≠ 0)) hm
  have e00 : setAt m 0 0 (m 0 0 + m 0 0) 0 0 = m 0 0 + m 0 0 := by simp [setAt_apply]
  unfold pushDataCovAliased
  simp only [hm, if_false, e00, hne, sub_self, zero_mul, add_zero, setAt_self]
  rw [foldl_positions o0 o1 (fun a0 a1 out => pushDataCovTmp a0 a1 0 0 _ _ out out)]
  rw [foldl_fixed]
  intro p hp
  rw [pushDataCovTmp_same _ _ ((mem_covPositions h0 h1).1 hp).2.2]
  exact setAt_self _ _ _

end Cmomy
