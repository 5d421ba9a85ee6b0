import Verif.Model.Interval
import Verif.Spec.Interval
import Mathlib.Data.List.Sort
import Mathlib.Tactic.Ring
import Mathlib.Tactic.LinearCombination
import Mathlib.Tactic.Linarith
import Mathlib.Tactic.FieldSimp
import Mathlib.Tactic.Positivity

/-!
# Order statistics and quantiles
-/

namespace Cmomy

open Spec

set_option linter.unusedSectionVars false

section order

variable {K : Type*} [Field K] [LinearOrder K]

theorem countLe_le_countLt (xs : List K) {v v' : K} (h : v < v') : countLe xs v ≤ countLt xs v' := by
  unfold countLe countLt
  apply List.countP_mono_left
  intro x _ hx
  simp only [decide_eq_true_eq] at hx ⊢
  exact lt_of_le_of_lt hx h

theorem Spec.IsOrderStat.mono {xs : List K} {k k' : ℕ} {v v' : K} (h : IsOrderStat xs k v)
    (h' : IsOrderStat xs k' v') (hk : k ≤ k') : v ≤ v' := by
  by_contra hc
  rw [not_le] at hc
  have := countLe_le_countLt xs hc
  have := h.2.1
  have := h'.2.2
  omega

theorem Spec.IsOrderStat.unique {xs : List K} {k : ℕ} {v v' : K} (h : IsOrderStat xs k v)
    (h' : IsOrderStat xs k v') : v = v' :=
  le_antisymm (h.mono h' le_rfl) (h'.mono h le_rfl)

theorem Spec.IsOrderStat.perm {xs ys : List K} (p : xs.Perm ys) {k : ℕ} {v : K}
    (h : IsOrderStat xs k v) : IsOrderStat ys k v := by
  refine ⟨p.mem_iff.1 h.1, ?_, ?_⟩
  · unfold countLt; rw [← p.countP_eq]; exact h.2.1
  · unfold countLe; rw [← p.countP_eq]; exact h.2.2

theorem Spec.IsOrderStat.lt_length {xs : List K} {k : ℕ} {v : K} (h : IsOrderStat xs k v) :
    k < xs.length := lt_of_lt_of_le h.2.2 List.countP_le_length

/-- The entries of a sorted list are its order statistics. -/
theorem isOrderStat_of_sorted {s : List K} (hs : s.Pairwise (· ≤ ·)) (k : ℕ) (hk : k < s.length) :
    IsOrderStat s k s[k] := by
  have hle : ∀ j (hj : j < s.length), j ≤ k → s[j] ≤ s[k] := by
    intro j hj hjk
    rcases Nat.lt_or_eq_of_le hjk with h | h
    · exact List.pairwise_iff_getElem.1 hs j k hj hk h
    · subst h; exact le_rfl
  have hge : ∀ j (hj : j < s.length), k ≤ j → s[k] ≤ s[j] := by
    intro j hj hjk
    rcases Nat.lt_or_eq_of_le hjk with h | h
    · exact List.pairwise_iff_getElem.1 hs k j hk hj h
    · subst h; exact le_rfl
  refine ⟨List.getElem_mem hk, ?_, ?_⟩
  · have : countLt s s[k] = List.countP (fun x => decide (x < s[k])) (s.take k) := by
      unfold countLt
      generalize hv : s[k] = v at hge
      have e : s.countP (fun x => decide (x < v)) =
          (s.take k ++ s.drop k).countP (fun x => decide (x < v)) := by rw [List.take_append_drop]
      rw [e, List.countP_append, Nat.add_eq_left, List.countP_eq_zero]
      intro x hx
      obtain ⟨j, hj, rfl⟩ := List.getElem_of_mem hx
      simp only [List.getElem_drop, decide_eq_true_eq, not_lt]
      have hj' : k + j < s.length := by simpa [List.length_drop, Nat.lt_sub_iff_add_lt'] using hj
      exact hge _ hj' (by omega)
    rw [this]
    refine le_trans List.countP_le_length ?_
    simp [List.length_take]
  · have : k + 1 ≤ countLe s s[k] := by
      unfold countLe
      generalize hv : s[k] = v at hle
      have e : s.countP (fun x => decide (x ≤ v)) =
          (s.take (k + 1) ++ s.drop (k + 1)).countP (fun x => decide (x ≤ v)) := by
        rw [List.take_append_drop]
      rw [e, List.countP_append]
      have : List.countP (fun x => decide (x ≤ v)) (s.take (k + 1)) = (s.take (k + 1)).length := by
        rw [List.countP_eq_length]
        intro x hx
        obtain ⟨j, hj, rfl⟩ := List.getElem_of_mem hx
        simp only [List.getElem_take, decide_eq_true_eq]
        have hj' : j < k + 1 ∧ j < s.length := by simpa [List.length_take] using hj
        exact hle _ hj'.2 (by omega)
      rw [this, List.length_take]
      omega
    omega

theorem sortK_perm (xs : List K) : (sortK xs).Perm xs := List.mergeSort_perm _ _

theorem sortK_length (xs : List K) : (sortK xs).length = xs.length := (sortK_perm xs).length_eq

theorem sortK_sorted (xs : List K) : (sortK xs).Pairwise (· ≤ ·) := by
  have := List.pairwise_mergeSort (le := fun a b : K => decide (a ≤ b))
    (fun a b c hab hbc => by simp only [decide_eq_true_eq] at *; exact le_trans hab hbc)
    (fun a b => by simp only [Bool.or_eq_true, decide_eq_true_eq]; exact le_total a b) xs
  simpa [sortK] using this

theorem isOrderStat_sortK (xs : List K) (k : ℕ) (hk : k < xs.length) :
    IsOrderStat xs k ((sortK xs).getD k 0) := by
  have hk' : k < (sortK xs).length := by rwa [sortK_length]
  rw [List.getD_eq_getElem?_getD, List.getElem?_eq_getElem hk', Option.getD_some]
  exact (isOrderStat_of_sorted (sortK_sorted xs) k hk').perm (sortK_perm xs)

end order

section field

variable {K : Type*} [Field K] [LinearOrder K] [IsStrictOrderedRing K]

theorem lerp_eq (a b t : K) : lerp a b t = a + t * (b - a) := by
  unfold lerp; split_ifs <;> ring

theorem Spec.IsQuantile.unique {xs : List K} {q r r' : K} (h : IsQuantile xs q r)
    (h' : IsQuantile xs q r') : r = r' := by
  obtain ⟨k, t, a, b, e, t0, t1, ha, hb, rfl⟩ := h
  obtain ⟨k', t', a', b', e', t0', t1', ha', hb', rfl⟩ := h'
  have hh : (k : K) + t = k' + t' := by rw [← e, ← e']
  have hk : k = k' := by
    rcases Nat.lt_trichotomy k k' with h | h | h
    · have : (k : K) + 1 ≤ k' := by exact_mod_cast h
      linarith
    · exact h
    · have : (k' : K) + 1 ≤ k := by exact_mod_cast h
      linarith
  subst hk
  have ht : t = t' := by linarith
  subst ht
  rw [ha.unique ha']
  rcases hb with hb | hb
  · subst hb; ring
  · rcases hb' with hb' | hb'
    · subst hb'; ring
    · rw [hb.unique hb']

theorem Spec.IsQuantile.mono {xs : List K} {q q' r r' : K} (h : IsQuantile xs q r)
    (h' : IsQuantile xs q' r') (hq : q ≤ q') : r ≤ r' := by
  obtain ⟨k, t, a, b, e, t0, t1, ha, hb, rfl⟩ := h
  obtain ⟨k', t', a', b', e', t0', t1', ha', hb', rfl⟩ := h'
  have hn : (1 : K) ≤ xs.length := by
    have := ha.lt_length
    exact_mod_cast (by omega : 1 ≤ xs.length)
  have hh : (k : K) + t ≤ k' + t' := by
    rw [← e, ← e']
    exact mul_le_mul_of_nonneg_left hq (by linarith)
  have hk : k ≤ k' := by
    by_contra hc
    have : (k' : K) + 1 ≤ k := by exact_mod_cast (by omega : k' + 1 ≤ k)
    linarith
  have up : t = 0 ∨ a ≤ b := by
    rcases hb with hb | hb
    · exact Or.inl hb
    · exact Or.inr (ha.mono hb (by omega))
  have up' : t' = 0 ∨ a' ≤ b' := by
    rcases hb' with hb | hb
    · exact Or.inl hb
    · exact Or.inr (ha'.mono hb (by omega))
  have lower : a' ≤ a' + t' * (b' - a') := by
    rcases up' with h | h
    · rw [h]; linarith [zero_mul (b' - a')]
    · have := mul_nonneg t0' (sub_nonneg.2 h); linarith
  rcases Nat.lt_or_eq_of_le hk with hlt | rfl
  · refine le_trans ?_ lower
    rcases hb with hb | hb
    · rw [hb, zero_mul, add_zero]; exact ha.mono ha' hk
    · refine le_trans ?_ (hb.mono ha' (by omega))
      have := mul_nonneg (sub_nonneg.2 t1.le) (sub_nonneg.2 (ha.mono hb (by omega)))
      linarith [this, (by ring : (1 - t) * (b - a) = b - (a + t * (b - a)))]
  · have haa := ha.unique ha'
    subst haa
    have htt : t ≤ t' := by linarith
    rcases hb' with hb' | hb'
    · have : t = 0 := le_antisymm (by rw [← hb']; exact htt) t0
      rw [this, hb']; simp
    · rcases hb with hb | hb
      · rw [hb, zero_mul, add_zero]; exact lower
      · have := hb.unique hb'
        subst this
        have := mul_le_mul_of_nonneg_right htt (sub_nonneg.2 (ha.mono hb (by omega)))
        linarith

theorem Spec.IsQuantile.perm {xs ys : List K} (p : xs.Perm ys) {q r : K} (h : IsQuantile xs q r) :
    IsQuantile ys q r := by
  obtain ⟨k, t, a, b, e, t0, t1, ha, hb, rfl⟩ := h
  exact ⟨k, t, a, b, by rw [← e, p.length_eq], t0, t1, ha.perm p, hb.imp id (·.perm p), rfl⟩

theorem Spec.IsOrderStat.affine {xs : List K} {k : ℕ} {v : K} (h : IsOrderStat xs k v) {c : K} (d : K)
    (hc : 0 < c) : IsOrderStat (xs.map (fun x => c * x + d)) k (c * v + d) := by
  refine ⟨List.mem_map_of_mem h.1, ?_, ?_⟩
  · unfold countLt
    rw [List.countP_map]
    convert h.2.1 using 2
    · unfold countLt; congr 1; funext x; simp [hc]
  · unfold countLe
    rw [List.countP_map]
    convert h.2.2 using 2
    · unfold countLe; congr 1; funext x; simp [hc]

theorem Spec.IsQuantile.affine {xs : List K} {q r : K} (h : IsQuantile xs q r) {c : K} (d : K)
    (hc : 0 < c) : IsQuantile (xs.map (fun x => c * x + d)) q (c * r + d) := by
  obtain ⟨k, t, a, b, e, t0, t1, ha, hb, rfl⟩ := h
  exact ⟨k, t, c * a + d, c * b + d, by rw [List.length_map]; exact e, t0, t1, ha.affine d hc,
    hb.imp id (·.affine d hc), by ring⟩

theorem countLt_add_countGe (xs : List K) (v : K) :
    countLt xs v + xs.countP (fun x => decide (v ≤ x)) = xs.length := by
  unfold countLt
  induction xs with
  | nil => rfl
  | cons x xs ih =>
    simp only [List.countP_cons, List.length_cons, decide_eq_true_eq]
    by_cases h : x < v
    · simp [h, not_le.2 h]; omega
    · simp [h, not_lt.1 h]; omega

theorem countLe_add_countGt (xs : List K) (v : K) : countLe xs v + countGt xs v = xs.length := by
  unfold countLe countGt
  induction xs with
  | nil => rfl
  | cons x xs ih =>
    simp only [List.countP_cons, List.length_cons, decide_eq_true_eq]
    by_cases h : x ≤ v
    · simp [h, not_lt.2 h]; omega
    · simp [h, not_le.1 h]; omega

theorem Spec.IsOrderStat.neg {xs : List K} {k : ℕ} {v : K} (h : IsOrderStat xs k v) :
    IsOrderStat (xs.map (fun x => -x)) (xs.length - 1 - k) (-v) := by
  have h1 := countLt_add_countGe xs v
  have h2 := countLe_add_countGt xs v
  have := h.2.1
  have := h.2.2
  refine ⟨List.mem_map_of_mem h.1, ?_, ?_⟩
  · have : countLt (xs.map (fun x => -x)) (-v) = countGt xs v := by
      unfold countLt countGt
      rw [List.countP_map]; congr 1; funext x; simp
    omega
  · have : countLe (xs.map (fun x => -x)) (-v) = xs.countP (fun x => decide (v ≤ x)) := by
      unfold countLe
      rw [List.countP_map]; congr 1; funext x; simp
    omega

/-- Reflection exchanges level `q` and `1 - q`. -/
theorem Spec.IsQuantile.neg {xs : List K} {q r : K} (h : IsQuantile xs q r) :
    IsQuantile (xs.map (fun x => -x)) (1 - q) (-r) := by
  obtain ⟨k, t, a, b, e, t0, t1, ha, hb, rfl⟩ := h
  have hl := ha.lt_length
  rcases eq_or_lt_of_le t0 with h0 | h0
  · subst h0
    refine ⟨xs.length - 1 - k, 0, -a, -a, ?_, le_rfl, zero_lt_one, ha.neg, Or.inl rfl, by ring⟩
    rw [List.length_map, Nat.cast_sub (by omega), Nat.cast_sub (by omega), Nat.cast_one]
    linear_combination -e
  · have hb' := hb.resolve_left h0.ne'
    have hl' := hb'.lt_length
    refine ⟨xs.length - 1 - (k + 1), 1 - t, -b, -a, ?_, by linarith, by linarith, hb'.neg,
      Or.inr ?_, by ring⟩
    · rw [List.length_map, Nat.cast_sub (by omega), Nat.cast_sub (by omega)]
      push_cast
      linear_combination -e
    · have := ha.neg
      rwa [show xs.length - 1 - (k + 1) + 1 = xs.length - 1 - k by omega]

/-- Some datum is at most, and some at least, the quantile; and how many. -/
theorem Spec.IsQuantile.counts {xs : List K} {q r : K} (h : IsQuantile xs q r) :
    (countLt xs r : K) < ((xs.length : K) - 1) * q + 1 ∧
    (countGt xs r : K) < ((xs.length : K) - 1) * (1 - q) + 1 := by
  have key : ∀ {ys : List K} {p s : K}, IsQuantile ys p s →
      (countLt ys s : K) < ((ys.length : K) - 1) * p + 1 := by
    intro ys p s h
    obtain ⟨k, t, a, b, e, t0, t1, ha, hb, rfl⟩ := h
    rcases eq_or_lt_of_le t0 with h0 | h0
    · subst h0
      have : (countLt ys (a + 0 * (b - a)) : K) ≤ k := by
        rw [zero_mul, add_zero]; exact_mod_cast ha.2.1
      linarith
    · have hb' := hb.resolve_left h0.ne'
      have hab := ha.mono hb' (by omega)
      have hle : a + t * (b - a) ≤ b := by
        have := mul_nonneg (sub_nonneg.2 t1.le) (sub_nonneg.2 hab)
        linarith [this, (by ring : (1 - t) * (b - a) = b - (a + t * (b - a)))]
      have : countLt ys (a + t * (b - a)) ≤ k + 1 := by
        refine le_trans ?_ hb'.2.1
        apply List.countP_mono_left
        intro x _ hx
        simp only [decide_eq_true_eq] at hx ⊢
        exact lt_of_lt_of_le hx hle
      have : (countLt ys (a + t * (b - a)) : K) ≤ k + 1 := by exact_mod_cast this
      linarith
  refine ⟨key h, ?_⟩
  have := key h.neg
  rw [List.length_map] at this
  refine lt_of_eq_of_lt ?_ this
  congr 1
  unfold countLt countGt
  rw [List.countP_map]; congr 1; funext x; simp

theorem Spec.IsQuantile.bounds {xs : List K} {q r : K} (h : IsQuantile xs q r) :
    (∃ x ∈ xs, x ≤ r) ∧ ∃ x ∈ xs, r ≤ x := by
  obtain ⟨k, t, a, b, e, t0, t1, ha, hb, rfl⟩ := h
  rcases eq_or_lt_of_le t0 with h0 | h0
  · subst h0; exact ⟨⟨a, ha.1, by simp⟩, ⟨a, ha.1, by simp⟩⟩
  · have hb' := hb.resolve_left h0.ne'
    have hab := sub_nonneg.2 (ha.mono hb' (by omega))
    refine ⟨⟨a, ha.1, ?_⟩, ⟨b, hb'.1, ?_⟩⟩
    · have := mul_nonneg t0 hab; linarith
    · have := mul_nonneg (sub_nonneg.2 t1.le) hab
      linarith [this, (by ring : (1 - t) * (b - a) = b - (a + t * (b - a)))]

variable [FloorRing K]

theorem quantile1_isQuantile {xs : List K} (hne : xs ≠ []) {q : K} (h0 : 0 ≤ q) (h1 : q ≤ 1) :
    IsQuantile xs q (quantile1 xs q) := by
  have hn : 0 < xs.length := List.length_pos_iff.2 hne
  have hcast : ((xs.length - 1 : ℕ) : K) = (xs.length : K) - 1 := by
    rw [Nat.cast_sub hn, Nat.cast_one]
  unfold quantile1
  simp only
  split_ifs with hv
  · have hv' : ((xs.length - 1 : ℕ) : K) * q = ((xs.length - 1 : ℕ) : K) :=
      le_antisymm (by nlinarith [(Nat.cast_nonneg (xs.length - 1) : (0 : K) ≤ _)]) hv
    exact ⟨xs.length - 1, 0, _, 0, by rw [← hcast, hv', add_zero], le_rfl, zero_lt_one,
      isOrderStat_sortK xs _ (by omega), Or.inl rfl, by ring⟩
  · rw [not_le] at hv
    set v : K := ((xs.length - 1 : ℕ) : K) * q with hvdef
    have hv0 : 0 ≤ v := mul_nonneg (Nat.cast_nonneg _) h0
    have hf1 : ((⌊v⌋₊ : ℕ) : K) ≤ v := Nat.floor_le hv0
    have hf2 : v < (⌊v⌋₊ : K) + 1 := Nat.lt_floor_add_one v
    have hlt : ⌊v⌋₊ < xs.length - 1 := by
      have : ((⌊v⌋₊ : ℕ) : K) < ((xs.length - 1 : ℕ) : K) := lt_of_le_of_lt hf1 hv
      exact_mod_cast this
    refine ⟨⌊v⌋₊, v - ⌊v⌋₊, _, _, by rw [← hcast, ← hvdef]; ring, by linarith, by linarith,
      isOrderStat_sortK xs _ (by omega), Or.inr (isOrderStat_sortK xs _ (by omega)), lerp_eq _ _ _⟩

theorem quantile1_perm {xs ys : List K} (p : xs.Perm ys) (q : K) :
    quantile1 xs q = quantile1 ys q := by
  have : sortK xs = sortK ys :=
    (((sortK_perm xs).trans p).trans (sortK_perm ys).symm).eq_of_pairwise
      (fun a b _ _ hab hba => le_antisymm hab hba) (sortK_sorted xs) (sortK_sorted ys)
  unfold quantile1
  rw [this, p.length_eq]

theorem npQuantile_ok {xs qs : List K} (hne : xs ≠ []) (hq : Levels qs) :
    npQuantile xs qs = .ok (qs.map (quantile1 xs)) := by
  unfold npQuantile
  rw [if_pos, if_neg]
  · simpa using hne
  · rw [List.all_eq_true]
    intro q h
    simpa using hq q h

theorem npQuantile_error {xs qs : List K} (hq : ¬ Levels qs) :
    npQuantile xs qs = .error .valueError := by
  unfold npQuantile
  rw [if_neg]
  intro h
  rw [List.all_eq_true] at h
  exact hq (fun q hm => by simpa using h q hm)

end field

end Cmomy
