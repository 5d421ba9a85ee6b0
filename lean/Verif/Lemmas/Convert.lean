import Verif.Model.Convert
import Verif.Lemmas.Bridge

/-!
# Central/raw conversion: closed forms
-/

namespace Cmomy.Convert

open Cmomy Finset

set_option linter.unusedSectionVars false

variable {K : Type*} [Field K]

theorem foldl_update (f : ℕ → K) (s : ℕ) (len : ℕ) (raw : Mom K) (n : ℕ) :
    (List.range' s len).foldl (fun raw n => Function.update raw n (f n)) raw n =
      if s ≤ n ∧ n < s + len then f n else raw n := by
  have := foldl_overwrite (S := Mom K) (fun r i => r i) (fun r i v => Function.update r i v)
    (fun r p v q => by by_cases h : q = p <;> simp [h]) (fun _ _ => False) (fun p _ => f p)
    (fun _ _ _ _ => rfl) (List.range' s len) (List.nodup_range' ..)
    (List.Pairwise.imp (fun _ => not_false) (List.pairwise_lt_range' ..)) raw n
  simp only [List.mem_range'_1] at this
  exact this

theorem geom_fold (g : ℕ → K) (a : K) (j : ℕ) (t : K) :
    (List.range j).foldl (fun (s : K × K) i => (s.1 + g i * s.2, s.2 * a)) (t, 1) =
      (t + ∑ i ∈ range j, g i * a ^ i, a ^ j) := by
  induction j with
  | zero => simp
  | succ j ih =>
    rw [List.range_succ, List.foldl_append, ih, List.foldl_cons, List.foldl_nil,
      sum_range_succ, pow_succ, add_assoc]

section charzero

variable [CharZero K]

theorem centralToRawEntry_eq (ave : K) (c : Mom K) {n : ℕ} (hn : 2 ≤ n) :
    centralToRawEntry ave c n = shift ave (full c) n := by
  unfold centralToRawEntry
  have : (fun (s : K × K) i => (s.1 + c (n - i) * s.2 * binom n i, s.2 * ave)) =
      fun s i => (s.1 + ((n.choose i : K) * c (n - i)) * s.2, s.2 * ave) := by
    funext s i
    rw [binom_eq_choose]
    congr 1
    ring
  rw [this, geom_fold, shift_full _ _ hn, zero_add]
  simp only
  rw [← pow_succ, show n - 1 + 1 = n by omega]

/-- Raw moments with the zeroth moment put back. -/
def fullRaw (r : Mom K) (n : ℕ) : K := if n = 0 then 1 else r n

theorem rawToCentralEntry_eq (r : Mom K) {n : ℕ} (hn : 2 ≤ n) :
    rawToCentralEntry (r 1) r n = shift (-(r 1)) (fullRaw r) n := by
  unfold rawToCentralEntry
  have : (fun (s : K × K) i => (s.1 + r (n - i) * s.2 * binom n i, s.2 * -(r 1))) =
      fun s i => (s.1 + ((n.choose i : K) * r (n - i)) * s.2, s.2 * -(r 1)) := by
    funext s i
    rw [binom_eq_choose]
    congr 1
    ring
  rw [this, geom_fold, zero_add]
  obtain ⟨m, rfl⟩ : ∃ m, n = m + 2 := ⟨n - 2, by omega⟩
  rw [shift, sum_range_succ, sum_range_succ]
  have h1 : m + 2 - (m + 1) = 1 := by omega
  have h2 : m + 2 - 1 = m + 1 := by omega
  simp only [Nat.choose_self, Nat.sub_self, h1, h2]
  have h3 : ∀ i ∈ range (m + 1), ((m + 2).choose i : K) * fullRaw r (m + 2 - i) * (-(r 1)) ^ i =
      ((m + 2).choose i : K) * r (m + 2 - i) * (-(r 1)) ^ i := by
    intro i hi
    rw [mem_range] at hi
    rw [fullRaw, if_neg (by omega)]
  rw [sum_congr rfl h3]
  have h4 : (m + 2).choose (m + 1) = m + 2 := by
    rw [Nat.choose_succ_self_right]
  rw [h4]
  simp only [fullRaw, if_true, one_ne_zero, if_false]
  push_cast
  ring

theorem centralToRaw_apply (order : ℕ) (c r : Mom K) (n : ℕ) :
    centralToRaw order c r n =
      if n = 0 then c 0 else if n = 1 then c 1
      else if n ≤ order then shift (c 1) (full c) n else r n := by
  unfold centralToRaw
  rw [foldl_update]
  by_cases h0 : n = 0
  · subst h0; simp
  by_cases h1 : n = 1
  · subst h1; simp
  by_cases hn : n ≤ order
  · rw [if_pos (by omega), if_neg h0, if_neg h1, if_pos hn,
      centralToRawEntry_eq _ _ (by omega)]
  · rw [if_neg (by omega), if_neg h0, if_neg h1, if_neg hn]
    simp [h0, h1]

theorem rawToCentral_apply (order : ℕ) (r c : Mom K) (n : ℕ) :
    rawToCentral order r c n =
      if n = 0 then r 0 else if n = 1 then r 1
      else if n ≤ order then shift (-(r 1)) (fullRaw r) n else c n := by
  unfold rawToCentral
  rw [foldl_update]
  by_cases h0 : n = 0
  · subst h0; simp
  by_cases h1 : n = 1
  · subst h1; simp
  by_cases hn : n ≤ order
  · rw [if_pos (by omega), if_neg h0, if_neg h1, if_pos hn,
      rawToCentralEntry_eq _ (by omega)]
  · rw [if_neg (by omega), if_neg h0, if_neg h1, if_neg hn]
    simp [h0, h1]

theorem fullRaw_centralToRaw {order : ℕ} (c r : Mom K) {n : ℕ} (hn : n ≤ order) :
    fullRaw (centralToRaw order c r) n = shift (c 1) (full c) n := by
  unfold fullRaw
  by_cases h0 : n = 0
  · subst h0; simp [shift_at_zero]
  rw [if_neg h0, centralToRaw_apply, if_neg h0]
  by_cases h1 : n = 1
  · subst h1; simp [shift_at_one]
  rw [if_neg h1, if_pos hn]

theorem full_rawToCentral {order : ℕ} (r c : Mom K) {n : ℕ} (hn : n ≤ order) :
    full (rawToCentral order r c) n = shift (-(r 1)) (fullRaw r) n := by
  unfold full
  by_cases h0 : n = 0
  · subst h0; simp [shift_at_zero, fullRaw]
  rw [if_neg h0, rawToCentral_apply, if_neg h0]
  by_cases h1 : n = 1
  · subst h1; simp [shift_at_one, fullRaw]
  rw [if_neg h1, if_neg h1, if_pos hn]

/-! ### two variables -/

theorem centralToRawCovRow_eq (ave1 : K) (c : Com K) (n m i : ℕ) (hi : i ≤ n) (A t : K) :
    centralToRawCovRow ave1 c n m i A t =
      t + ∑ j ∈ range (m + 1),
        (n.choose i : K) * (m.choose j : K) * (A * ave1 ^ j) * full2 c (n - i) (m - j) := by
  unfold centralToRawCovRow
  have key : ∀ J, J ≤ m + 1 → (List.range J).foldl (fun (s : K × K) j =>
      let nm_ij := n + m - (i + j)
      let tmp :=
        if nm_ij = 0 then s.1 + A * s.2
        else if nm_ij = 1 then s.1
        else s.1 + c (n - i) (m - j) * A * s.2 * binom n i * binom m j
      (tmp, s.2 * ave1)) (t, (1 : K)) =
      (t + ∑ j ∈ range J,
        (n.choose i : K) * (m.choose j : K) * (A * ave1 ^ j) * full2 c (n - i) (m - j),
        ave1 ^ J) := by
    intro J
    induction J with
    | zero => intro _; simp
    | succ J ih =>
      intro hJ
      rw [List.range_succ, List.foldl_append, ih (by omega), List.foldl_cons, List.foldl_nil,
        sum_range_succ, pow_succ]
      simp only
      congr 1
      by_cases h0 : n + m - (i + J) = 0
      · have hin : i = n := by omega
        have hJm : J = m := by omega
        subst hin hJm
        rw [if_pos h0]
        simp [full2, add_assoc]
      · rw [if_neg h0]
        by_cases h1 : n + m - (i + J) = 1
        · rw [if_pos h1]
          have : full2 c (n - i) (m - J) = 0 := by
            unfold full2
            rw [if_neg (by omega), if_pos (by omega)]
          rw [this, mul_zero, add_zero]
        · rw [if_neg h1, full2_of_two_le _ (by omega), binom_eq_choose, binom_eq_choose]
          ring
  rw [key (m + 1) le_rfl]

theorem centralToRawCovEntry_eq (ave0 ave1 : K) (c : Com K) {n m : ℕ} (h : 2 ≤ n + m) :
    centralToRawCovEntry ave0 ave1 c n m = shift2 ave0 ave1 (full2 c) n m := by
  unfold centralToRawCovEntry
  rw [if_neg (by omega), shift2_eq_sum]
  have key : ∀ I, I ≤ n + 1 → (List.range I).foldl (fun (s : K × K) i =>
      (centralToRawCovRow ave1 c n m i s.2 s.1, s.2 * ave0)) ((0 : K), (1 : K)) =
      (∑ i ∈ range I, ∑ j ∈ range (m + 1),
        (n.choose i : K) * (m.choose j : K) * (ave0 ^ i * ave1 ^ j) * full2 c (n - i) (m - j),
        ave0 ^ I) := by
    intro I
    induction I with
    | zero => intro _; simp
    | succ I ih =>
      intro hI
      rw [List.range_succ, List.foldl_append, ih (by omega), List.foldl_cons, List.foldl_nil,
        sum_range_succ, pow_succ]
      simp only
      rw [centralToRawCovRow_eq _ _ _ _ _ (by omega)]
  rw [key (n + 1) le_rfl]

/-- Raw comoments with the zeroth one put back. -/
def fullRaw2 (r : Com K) (i j : ℕ) : K := if i + j = 0 then 1 else r i j

theorem rawToCentralCovRow_eq (ave1 : K) (r : Com K) (n m i : ℕ) (hi : i ≤ n) (A t : K) :
    rawToCentralCovRow ave1 r n m i A t =
      t + ∑ j ∈ range (m + 1),
        (n.choose i : K) * (m.choose j : K) * (A * (-ave1) ^ j) * fullRaw2 r (n - i) (m - j) := by
  unfold rawToCentralCovRow
  have key : ∀ J, J ≤ m + 1 → (List.range J).foldl (fun (s : K × K) j =>
      let nm_ij := n + m - (i + j)
      let tmp :=
        if nm_ij = 0 then s.1 + A * s.2
        else s.1 + r (n - i) (m - j) * A * s.2 * binom n i * binom m j
      (tmp, s.2 * -ave1)) (t, (1 : K)) =
      (t + ∑ j ∈ range J,
        (n.choose i : K) * (m.choose j : K) * (A * (-ave1) ^ j) * fullRaw2 r (n - i) (m - j),
        (-ave1) ^ J) := by
    intro J
    induction J with
    | zero => intro _; simp
    | succ J ih =>
      intro hJ
      rw [List.range_succ, List.foldl_append, ih (by omega), List.foldl_cons, List.foldl_nil,
        sum_range_succ, pow_succ]
      simp only
      congr 1
      by_cases h0 : n + m - (i + J) = 0
      · have hin : i = n := by omega
        have hJm : J = m := by omega
        subst hin hJm
        rw [if_pos h0]
        simp [fullRaw2, add_assoc]
      · rw [if_neg h0, fullRaw2, if_neg (by omega), binom_eq_choose, binom_eq_choose]
        ring
  rw [key (m + 1) le_rfl]

theorem rawToCentralCovEntry_eq (ave0 ave1 : K) (r : Com K) {n m : ℕ} (h : 2 ≤ n + m) :
    rawToCentralCovEntry ave0 ave1 r n m = shift2 (-ave0) (-ave1) (fullRaw2 r) n m := by
  unfold rawToCentralCovEntry
  rw [if_neg (by omega), shift2_eq_sum]
  have key : ∀ I, I ≤ n + 1 → (List.range I).foldl (fun (s : K × K) i =>
      (rawToCentralCovRow ave1 r n m i s.2 s.1, s.2 * -ave0)) ((0 : K), (1 : K)) =
      (∑ i ∈ range I, ∑ j ∈ range (m + 1),
        (n.choose i : K) * (m.choose j : K) * ((-ave0) ^ i * (-ave1) ^ j) *
          fullRaw2 r (n - i) (m - j),
        (-ave0) ^ I) := by
    intro I
    induction I with
    | zero => intro _; simp
    | succ I ih =>
      intro hI
      rw [List.range_succ, List.foldl_append, ih (by omega), List.foldl_cons, List.foldl_nil,
        sum_range_succ, pow_succ]
      simp only
      rw [rawToCentralCovRow_eq _ _ _ _ _ (by omega)]
  rw [key (n + 1) le_rfl]

end charzero

theorem fillCov_apply (o0 o1 : ℕ) (f : ℕ → ℕ → K) (out : Com K) (i j : ℕ) :
    fillCov o0 o1 f out i j = if i ≤ o0 ∧ j ≤ o1 then f i j else out i j := by
  have inner : ∀ (J n : ℕ) (out : Com K),
      (List.range J).foldl (fun out m => setAt out n m (f n m)) out i j =
        if i = n ∧ j < J then f i j else out i j := by
    intro J n out
    induction J with
    | zero => simp
    | succ J ih =>
      rw [List.range_succ, List.foldl_append, List.foldl_cons, List.foldl_nil, setAt_apply, ih]
      by_cases h : (i, j) = (n, J)
      · rw [if_pos h]
        obtain ⟨rfl, rfl⟩ := Prod.mk.inj h
        simp
      · rw [if_neg h]
        by_cases h2 : i = n ∧ j < J
        · rw [if_pos h2, if_pos ⟨h2.1, by omega⟩]
        · have h3 : ¬(i = n ∧ j < J + 1) := by
            rintro ⟨rfl, hj⟩
            by_cases hjJ : j = J
            · subst hjJ; exact h rfl
            · exact h2 ⟨rfl, by omega⟩
          rw [if_neg h2, if_neg h3]
  have outer : ∀ I, (List.range I).foldl (fun out n =>
      (List.range (o1 + 1)).foldl (fun out m => setAt out n m (f n m)) out) out i j =
        if i < I ∧ j ≤ o1 then f i j else out i j := by
    intro I
    induction I with
    | zero => simp
    | succ I ih =>
      rw [List.range_succ (n := I), List.foldl_append, List.foldl_cons, List.foldl_nil, inner, ih]
      by_cases h1 : i = I ∧ j < o1 + 1
      · rw [if_pos h1, if_pos (by omega)]
      · rw [if_neg h1]
        by_cases h2 : i < I ∧ j ≤ o1
        · rw [if_pos h2, if_pos (by omega)]
        · rw [if_neg h2, if_neg (by omega)]
  unfold fillCov
  rw [outer]
  by_cases h : i ≤ o0 ∧ j ≤ o1
  · rw [if_pos h, if_pos (by omega)]
  · rw [if_neg h, if_neg (by omega)]

section charzero2

variable [CharZero K]

theorem fullRaw2_centralToRawCov {o0 o1 : ℕ} (c r : Com K) {i j : ℕ} (hi : i ≤ o0) (hj : j ≤ o1) :
    fullRaw2 (centralToRawCov o0 o1 c r) i j = shift2 (c 1 0) (c 0 1) (full2 c) i j := by
  unfold fullRaw2 centralToRawCov
  rw [fillCov_apply, if_pos (show i ≤ o0 ∧ j ≤ o1 from ⟨hi, hj⟩)]
  by_cases h0 : i + j = 0
  · obtain ⟨rfl, rfl⟩ : i = 0 ∧ j = 0 := by omega
    rw [if_pos h0, shift2_at_zero]; rfl
  rw [if_neg h0]
  by_cases h2 : 2 ≤ i + j
  · exact centralToRawCovEntry_eq _ _ _ h2
  · rw [centralToRawCovEntry, if_pos (by omega)]
    have : (i = 1 ∧ j = 0) ∨ (i = 0 ∧ j = 1) := by omega
    rcases this with ⟨rfl, rfl⟩ | ⟨rfl, rfl⟩
    · rw [shift2_at_one_zero]; simp [full2]
    · rw [shift2_at_zero_one]; simp [full2]

theorem full2_rawToCentralCov {o0 o1 : ℕ} (r c : Com K) {i j : ℕ} (hi : i ≤ o0) (hj : j ≤ o1) :
    full2 (rawToCentralCov o0 o1 r c) i j =
      shift2 (-(r 1 0)) (-(r 0 1)) (fullRaw2 r) i j := by
  unfold full2 rawToCentralCov
  rw [fillCov_apply, if_pos (show i ≤ o0 ∧ j ≤ o1 from ⟨hi, hj⟩)]
  by_cases h0 : i + j = 0
  · obtain ⟨rfl, rfl⟩ : i = 0 ∧ j = 0 := by omega
    rw [if_pos h0, shift2_at_zero]; rfl
  rw [if_neg h0]
  by_cases h2 : 2 ≤ i + j
  · rw [if_neg (by omega)]
    exact rawToCentralCovEntry_eq _ _ _ h2
  · rw [if_pos (by omega)]
    have : (i = 1 ∧ j = 0) ∨ (i = 0 ∧ j = 1) := by omega
    rcases this with ⟨rfl, rfl⟩ | ⟨rfl, rfl⟩
    · rw [shift2_at_one_zero]; simp [fullRaw2]
    · rw [shift2_at_zero_one]; simp [fullRaw2]

end charzero2

/-! ### moments and comoments -/

/-- The first row-major position with `i + j = k` is `(0, k)` or `(k - o1, o1)`. -/
theorem comomentsToMoments_apply (o0 o1 : ℕ) (data : Com K) (out : Mom K) (k : ℕ) :
    comomentsToMoments o0 o1 data out k =
      if k ≤ o1 then data 0 k else if k ≤ o0 + o1 then data (k - o1) o1 else out k := by
  unfold comomentsToMoments
  set step : (ℕ → Bool) × Mom K → ℕ × ℕ → (ℕ → Bool) × Mom K := fun s p =>
    if !s.1 (p.1 + p.2) then (Function.update s.1 (p.1 + p.2) true,
      Function.update s.2 (p.1 + p.2) (data p.1 p.2)) else s with hstep
  -- one row `i`, columns `0..J-1`
  have row : ∀ (J i : ℕ) (s : (ℕ → Bool) × Mom K) (q : ℕ),
      let s' := ((List.range J).map (fun j => (i, j))).foldl step s
      (s'.1 q = (s.1 q || decide (i ≤ q ∧ q < i + J))) ∧
      (s'.2 q = if s.1 q = false ∧ i ≤ q ∧ q < i + J then data i (q - i) else s.2 q) := by
    intro J i s q
    induction J with
    | zero => simp
    | succ J ih =>
      simp only at ih ⊢
      rw [List.range_succ, List.map_append, List.foldl_append]
      simp only [List.map_cons, List.map_nil, List.foldl_cons, List.foldl_nil]
      set s1 := ((List.range J).map (fun j => (i, j))).foldl step s
      obtain ⟨ih1, ih2⟩ := ih
      by_cases hq : q = i + J
      · subst hq
        have hA : ¬(i ≤ i + J ∧ i + J < i + J) := by omega
        have hB : i ≤ i + J ∧ i + J < i + (J + 1) := by omega
        rw [decide_eq_false hA, Bool.or_false] at ih1
        rw [if_neg (by tauto)] at ih2
        rw [decide_eq_true hB, Bool.or_true]
        simp only [hstep]
        cases hs : s.1 (i + J) with
        | true =>
          rw [hs] at ih1
          simp [ih1, ih2]
        | false =>
          rw [hs] at ih1
          simp [ih1]
      · have hstepq : ((step s1 (i, J)).1 q = s1.1 q) ∧ ((step s1 (i, J)).2 q = s1.2 q) := by
          simp only [hstep]
          cases s1.1 (i + J) <;> simp [hq]
        rw [hstepq.1, hstepq.2, ih1, ih2]
        have hiff : (i ≤ q ∧ q < i + (J + 1)) ↔ (i ≤ q ∧ q < i + J) := by omega
        simp only [hiff, and_self]
  have rows : ∀ (I : ℕ) (q : ℕ),
      let s' := (ndindex I (o1 + 1)).foldl step ((fun _ => false), out)
      (s'.1 q = decide (0 < I ∧ q < I + o1)) ∧
      (s'.2 q = if 0 < I ∧ q < I + o1 then
          (if q ≤ o1 then data 0 q else data (q - o1) o1) else out q) := by
    intro I q
    induction I generalizing q with
    | zero => simp [ndindex]
    | succ I ih =>
      simp only at ih ⊢
      have hnd : ndindex (I + 1) (o1 + 1) = ndindex I (o1 + 1) ++
          (List.range (o1 + 1)).map (fun j => (I, j)) := by
        simp [ndindex, List.range_succ]
      rw [hnd, List.foldl_append]
      set s1 := (ndindex I (o1 + 1)).foldl step ((fun _ => false), out)
      obtain ⟨ih1, ih2⟩ := ih q
      obtain ⟨r1, r2⟩ := row (o1 + 1) I s1 q
      rw [r1, r2, ih1, ih2]
      constructor
      · rw [Bool.eq_iff_iff]
        simp only [Bool.or_eq_true, decide_eq_true_eq]
        omega
      · by_cases hold : 0 < I ∧ q < I + o1
        · rw [decide_eq_true hold, if_neg (by simp), if_pos hold,
            if_pos (show 0 < I + 1 ∧ q < I + 1 + o1 by omega)]
        · rw [decide_eq_false hold]
          by_cases hnew : I ≤ q ∧ q < I + (o1 + 1)
          · rw [if_pos ⟨rfl, hnew⟩, if_pos (show 0 < I + 1 ∧ q < I + 1 + o1 by omega)]
            by_cases hq : q ≤ o1
            · have hI : I = 0 := by omega
              subst hI
              rw [if_pos hq, Nat.sub_zero]
            · rw [if_neg hq]
              have : I = q - o1 := by omega
              subst this
              congr 1
              omega
          · rw [if_neg (by tauto), if_neg hold,
              if_neg (show ¬(0 < I + 1 ∧ q < I + 1 + o1) by omega)]
  obtain ⟨-, h2⟩ := rows (o0 + 1) k
  have hgoal : ((ndindex (o0 + 1) (o1 + 1)).foldl step ((fun _ => false), out)).2 k =
      if k ≤ o1 then data 0 k else if k ≤ o0 + o1 then data (k - o1) o1 else out k := by
    rw [h2]
    by_cases h1 : k ≤ o1
    · rw [if_pos (show 0 < o0 + 1 ∧ k < o0 + 1 + o1 by omega), if_pos h1, if_pos h1]
    · by_cases h3 : k ≤ o0 + o1
      · simp [h1, h3, show k < o0 + 1 + o1 by omega]
      · simp [h1, h3, show ¬(k < o0 + 1 + o1) by omega]
  exact hgoal

end Cmomy.Convert
