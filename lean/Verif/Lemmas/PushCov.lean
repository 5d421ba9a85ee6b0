import Verif.Model.PushCov
import Verif.Lemmas.Push

namespace Cmomy

open Finset

section shift2

variable {K : Type*} [CommRing K]

/-- Shift in both indices. -/
def shift2 (s t : K) (c : ℕ → ℕ → K) (i j : ℕ) : K := shift s (fun a => shift t (c a) j) i

theorem shift_comm (s t : K) (c : ℕ → ℕ → K) (i j : ℕ) :
    shift s (fun a => shift t (fun b => c a b) j) i =
      shift t (fun b => shift s (fun a => c a b) i) j := by
  simp only [shift, mul_sum, sum_mul]
  rw [sum_comm]
  refine sum_congr rfl fun a _ => sum_congr rfl fun b _ => ?_
  ring

theorem shift2_swap (s t : K) (c : ℕ → ℕ → K) (i j : ℕ) :
    shift2 s t c i j = shift2 t s (fun a b => c b a) j i := by
  unfold shift2
  rw [shift_comm]

theorem shift2_shift2 (s t s' t' : K) (c : ℕ → ℕ → K) (i j : ℕ) :
    shift2 s t (shift2 s' t' c) i j = shift2 (s + s') (t + t') c i j := by
  unfold shift2
  have : ∀ a, shift t (fun j => shift s' (fun a => shift t' (c a) j) a) j =
      shift s' (fun a => shift (t + t') (c a) j) a := by
    intro a
    rw [← shift_comm s' t (fun a b => shift t' (c a) b) a j]
    congr 1
    funext a
    rw [← shift_shift]
  simp only [this]
  exact shift_shift _ _ _ _

theorem shift2_zero (c : ℕ → ℕ → K) (i j : ℕ) : shift2 0 0 c i j = c i j := by
  unfold shift2; rw [shift_zero, shift_zero]

theorem shift2_congr {s t : K} {c d : ℕ → ℕ → K} {i j : ℕ}
    (h : ∀ a b, a ≤ i → b ≤ j → c a b = d a b) : shift2 s t c i j = shift2 s t d i j := by
  unfold shift2
  exact shift_congr fun a ha => shift_congr fun b hb => h a b ha hb

theorem shift2_add (s t : K) (c d : ℕ → ℕ → K) (i j : ℕ) :
    shift2 s t (fun a b => c a b + d a b) i j = shift2 s t c i j + shift2 s t d i j := by
  unfold shift2
  rw [← shift_add]
  congr 1
  funext a
  rw [← shift_add]

theorem shift2_mul (s t u : K) (c : ℕ → ℕ → K) (i j : ℕ) :
    shift2 s t (fun a b => u * c a b) i j = u * shift2 s t c i j := by
  unfold shift2
  rw [← shift_mul]
  congr 1
  funext a
  rw [← shift_mul]

theorem shift2_pow (s t x y : K) (i j : ℕ) :
    shift2 s t (fun a b => x ^ a * y ^ b) i j = (x + s) ^ i * (y + t) ^ j := by
  unfold shift2
  have : ∀ a, shift t (fun b => x ^ a * y ^ b) j = (y + t) ^ j * x ^ a := by
    intro a; rw [shift_mul, shift_pow]; ring
  simp only [this]
  rw [shift_mul, shift_pow]; ring

theorem shift2_eq_sum (s t : K) (c : ℕ → ℕ → K) (i j : ℕ) :
    shift2 s t c i j = ∑ a ∈ range (i + 1), ∑ b ∈ range (j + 1),
      (i.choose a : K) * (j.choose b : K) * (s ^ a * t ^ b) * c (i - a) (j - b) := by
  simp only [shift2, shift, mul_sum, sum_mul]
  refine sum_congr rfl fun a _ => sum_congr rfl fun b _ => ?_
  ring

/-- Comoments with the conventional values of total order 0 and 1 put back. -/
def full2 (c : ℕ → ℕ → K) (i j : ℕ) : K :=
  if i + j = 0 then 1 else if i + j = 1 then 0 else c i j

theorem full2_of_two_le (c : ℕ → ℕ → K) {i j : ℕ} (h : 2 ≤ i + j) : full2 c i j = c i j := by
  unfold full2; rw [if_neg (by omega), if_neg (by omega)]

theorem full2_zero (c : ℕ → ℕ → K) : full2 c 0 0 = 1 := rfl
theorem full2_one_zero (c : ℕ → ℕ → K) : full2 c 1 0 = 0 := rfl
theorem full2_zero_one (c : ℕ → ℕ → K) : full2 c 0 1 = 0 := rfl

theorem full2_congr_two {c d : ℕ → ℕ → K} {i j : ℕ} (h : 2 ≤ i + j → c i j = d i j) :
    full2 c i j = full2 d i j := by
  unfold full2
  split_ifs with h0 h1
  · rfl
  · rfl
  · exact h (by omega)

end shift2

variable {K : Type*} [Field K] [DecidableEq K]

omit [Field K] [DecidableEq K] in
theorem setAt_apply (out : Com K) (i j : ℕ) (v : K) (a b : ℕ) :
    setAt out i j v a b = if (a, b) = (i, j) then v else out a b := by
  unfold setAt
  by_cases h : a = i
  · subst h
    rw [Function.update_self]
    by_cases h' : b = j
    · subst h'; simp
    · rw [Function.update_of_ne h']; simp [h']
  · rw [Function.update_of_ne h]; simp [h]

/-- The exact combination formula for comoments. -/
def combine2 (α δ0 δ1 : K) (out data : Com K) (i j : ℕ) : K :=
  (1 - α) * shift2 (-(α * δ0)) (-(α * δ1)) (full2 out) i j +
    α * shift2 ((1 - α) * δ0) ((1 - α) * δ1) (full2 data) i j

/-- Summand of the double loop. -/
def covTerm (a0 a1 : ℕ) (δ0 δ1 α : K) (data out : Com K) (b0 b1 : ℕ) : K :=
  (a0.choose b0 : K) * (a1.choose b1 : K) * (δ0 ^ b0 * δ1 ^ b1) *
    ((-1) ^ (b0 + b1) * α ^ (b0 + b1) * (1 - α) * full2 out (a0 - b0) (a1 - b1) +
      (1 - α) ^ (b0 + b1) * α * full2 data (a0 - b0) (a1 - b1))

omit [DecidableEq K] in
theorem pushDataCovInner1_fold [CharZero K] (a0 a1 b0 : ℕ) (hb0 : b0 ≤ a0) (δ0 δ1 α t : K)
    (data out : Com K) (j : ℕ) (hj : j ≤ a1 + 1) :
    (List.range j).foldl (pushDataCovInner1 a0 a1 b0 (δ0 ^ b0) δ1 α (1 - α) data out)
      ⟨t, 1, α ^ b0, (-1) ^ b0, (1 - α) ^ b0⟩ =
      { tmp := t + ∑ b1 ∈ range j, covTerm a0 a1 δ0 δ1 α data out b0 b1
        delta1_b1 := δ1 ^ j
        alpha_bb := α ^ (b0 + j)
        minus_bb := (-1) ^ (b0 + j)
        one_alpha_bb := (1 - α) ^ (b0 + j) } := by
  induction j with
  | zero => simp
  | succ j ih =>
    rw [List.range_succ, List.foldl_append, ih (by omega)]
    simp only [List.foldl_cons, List.foldl_nil, pushDataCovInner1, sum_range_succ,
      binom_eq_choose, pow_succ, ← add_assoc]
    congr 1
    split_ifs with h0 h1
    · have e0 : b0 = a0 := by omega
      have e1 : j = a1 := by omega
      subst e0; subst e1
      simp only [covTerm, Nat.sub_self, Nat.choose_self, full2_zero]
      simp
    · rw [covTerm, full2_of_two_le _ (by omega), full2_of_two_le _ (by omega)]
      ring
    · have : a0 - b0 + (a1 - j) = 1 := by simpa using h1
      have hz : ∀ c : Com K, full2 c (a0 - b0) (a1 - j) = 0 := by
        intro c; unfold full2; rw [if_neg h0, if_pos this]
      rw [covTerm, hz, hz]; ring

omit [DecidableEq K] in
theorem pushDataCovInner0_fold [CharZero K] (a0 a1 : ℕ) (δ0 δ1 α : K)
    (data out : Com K) (i : ℕ) (hi : i ≤ a0 + 1) :
    (List.range i).foldl (pushDataCovInner0 a0 a1 δ0 δ1 α (1 - α) data out) CAcc0.init =
      { tmp := ∑ b0 ∈ range i, ∑ b1 ∈ range (a1 + 1), covTerm a0 a1 δ0 δ1 α data out b0 b1
        delta0_b0 := δ0 ^ i
        alpha_b0 := α ^ i
        minus_b0 := (-1) ^ i
        one_alpha_b0 := (1 - α) ^ i } := by
  induction i with
  | zero => simp [CAcc0.init]
  | succ i ih =>
    rw [List.range_succ, List.foldl_append, ih (by omega)]
    simp only [List.foldl_cons, List.foldl_nil, pushDataCovInner0]
    rw [pushDataCovInner1_fold a0 a1 i (by omega) δ0 δ1 α _ data out (a1 + 1) le_rfl]
    simp only [sum_range_succ _ i, pow_succ]

omit [DecidableEq K] in
theorem pushDataCovTmp_eq [CharZero K] (a0 a1 : ℕ) (δ0 δ1 α : K) (data out : Com K) :
    pushDataCovTmp a0 a1 δ0 δ1 α (1 - α) data out = combine2 α δ0 δ1 out data a0 a1 := by
  unfold pushDataCovTmp combine2
  rw [pushDataCovInner0_fold a0 a1 δ0 δ1 α data out (a0 + 1) le_rfl]
  simp only [shift2_eq_sum, mul_sum, ← sum_add_distrib]
  refine sum_congr rfl fun b0 _ => sum_congr rfl fun b1 _ => ?_
  unfold covTerm
  rw [neg_pow (α * δ0), neg_pow (α * δ1), mul_pow α δ0, mul_pow α δ1, mul_pow (1 - α) δ0,
    mul_pow (1 - α) δ1, pow_add, pow_add, pow_add]
  ring

omit [DecidableEq K] in
theorem pushValCovInner1_eq (a0 a1 b0 : ℕ) (d δ α β : K) (out : Com K) :
    pushValCovInner1 a0 a1 b0 d δ α β out =
      pushDataCovInner1 a0 a1 b0 d δ α β (fun _ _ => 0) out := by
  funext s b
  simp [pushValCovInner1, pushDataCovInner1]

omit [DecidableEq K] in
theorem pushValCovTmp_eq (a0 a1 : ℕ) (δ0 δ1 α β : K) (out : Com K) :
    pushValCovTmp a0 a1 δ0 δ1 α β out = pushDataCovTmp a0 a1 δ0 δ1 α β (fun _ _ => 0) out := by
  unfold pushValCovTmp pushDataCovTmp
  have : pushValCovInner0 a0 a1 δ0 δ1 α β out =
      pushDataCovInner0 a0 a1 δ0 δ1 α β (fun _ _ => 0) out := by
    funext s b
    simp only [pushValCovInner0, pushDataCovInner0, pushValCovInner1_eq]
  rw [this]

omit [DecidableEq K] in
theorem combine2_congr {α δ0 δ1 : K} {out out' data data' : Com K} {i j : ℕ}
    (ho : ∀ a b, a ≤ i → b ≤ j → 2 ≤ a + b → out a b = out' a b)
    (hd : ∀ a b, a ≤ i → b ≤ j → 2 ≤ a + b → data a b = data' a b) :
    combine2 α δ0 δ1 out data i j = combine2 α δ0 δ1 out' data' i j := by
  unfold combine2
  congr 2
  · exact shift2_congr fun a b ha hb => full2_congr_two fun h => ho a b ha hb h
  · exact shift2_congr fun a b ha hb => full2_congr_two fun h => hd a b ha hb h

theorem mem_rangeDownTo {hi lo a : ℕ} (h : lo ≤ hi + 1) :
    a ∈ rangeDownTo hi lo ↔ lo ≤ a ∧ a ≤ hi := by
  unfold rangeDownTo
  rw [List.mem_map]
  constructor
  · rintro ⟨i, hi', rfl⟩
    rw [List.mem_range] at hi'
    omega
  · intro h
    exact ⟨hi - a, List.mem_range.2 (by omega), by omega⟩

theorem pairwise_rangeDownTo (hi lo : ℕ) : (rangeDownTo hi lo).Pairwise (fun p q => q < p) := by
  unfold rangeDownTo
  rw [List.pairwise_map]
  refine (List.pairwise_lt_range (n := hi + 1 - lo)).imp_of_mem ?_
  intro a b ha hb hab
  rw [List.mem_range] at ha hb
  omega

/-- The positions overwritten by the double loop, in order. -/
def covPositions (order0 order1 : ℕ) : List (ℕ × ℕ) :=
  (rangeDownTo order0 (max 0 (2 - order1))).flatMap
    (fun a0 => (rangeDownTo order1 (max 0 (2 - a0))).map (fun a1 => (a0, a1)))

theorem mem_covPositions {o0 o1 : ℕ} (h0 : 1 ≤ o0) (h1 : 1 ≤ o1) {p : ℕ × ℕ} :
    p ∈ covPositions o0 o1 ↔ p.1 ≤ o0 ∧ p.2 ≤ o1 ∧ 2 ≤ p.1 + p.2 := by
  unfold covPositions
  rw [List.mem_flatMap]
  constructor
  · rintro ⟨a0, ha0, hp⟩
    rw [mem_rangeDownTo (by omega)] at ha0
    rw [List.mem_map] at hp
    obtain ⟨a1, ha1, rfl⟩ := hp
    rw [mem_rangeDownTo (by omega)] at ha1
    simp only
    omega
  · rintro ⟨hp0, hp1, hp⟩
    refine ⟨p.1, (mem_rangeDownTo (by omega)).2 ⟨by omega, hp0⟩, ?_⟩
    rw [List.mem_map]
    exact ⟨p.2, (mem_rangeDownTo (by omega)).2 ⟨by omega, hp1⟩, rfl⟩

theorem pairwise_covPositions (o0 o1 : ℕ) : (covPositions o0 o1).Pairwise
    (fun p q => ¬ (p.1 ≤ q.1 ∧ p.2 ≤ q.2)) := by
  unfold covPositions
  rw [List.pairwise_flatMap]
  constructor
  · intro a0 _
    rw [List.pairwise_map]
    refine (pairwise_rangeDownTo _ _).imp ?_
    intro a b h h'
    simp only at h'
    omega
  · refine (pairwise_rangeDownTo _ _).imp ?_
    intro a b h p hp q hq h'
    rw [List.mem_map] at hp hq
    obtain ⟨_, _, rfl⟩ := hp
    obtain ⟨_, _, rfl⟩ := hq
    simp only at h'
    omega

theorem nodup_covPositions (o0 o1 : ℕ) : (covPositions o0 o1).Nodup :=
  (pairwise_covPositions o0 o1).imp (fun h e => h (by subst e; exact ⟨le_rfl, le_rfl⟩))

omit [Field K] [DecidableEq K] in
theorem foldl_positions (o0 o1 : ℕ) (f : ℕ → ℕ → Com K → K) (out : Com K) :
    (rangeDownTo o0 (max 0 (2 - o1))).foldl (fun out a0 =>
        (rangeDownTo o1 (max 0 (2 - a0))).foldl (fun out a1 =>
          setAt out a0 a1 (f a0 a1 out)) out) out =
    (covPositions o0 o1).foldl (fun out p => setAt out p.1 p.2 (f p.1 p.2 out)) out := by
  unfold covPositions
  rw [List.foldl_flatMap]
  simp only [List.foldl_map]

omit [DecidableEq K] in
/-- The descending in-place double loop computes every entry from the initial content. -/
theorem pushDataCov_loop [CharZero K] (o0 o1 : ℕ) (h0 : 1 ≤ o0) (h1 : 1 ≤ o1) (δ0 δ1 α : K)
    (data out : Com K) (i j : ℕ) :
    (rangeDownTo o0 (max 0 (2 - o1))).foldl (fun out a0 =>
        (rangeDownTo o1 (max 0 (2 - a0))).foldl (fun out a1 =>
          setAt out a0 a1 (pushDataCovTmp a0 a1 δ0 δ1 α (1 - α) data out)) out) out i j =
    if i ≤ o0 ∧ j ≤ o1 ∧ 2 ≤ i + j then combine2 α δ0 δ1 out data i j else out i j := by
  rw [foldl_positions o0 o1 (fun a0 a1 out => pushDataCovTmp a0 a1 δ0 δ1 α (1 - α) data out) out]
  have key := foldl_overwrite (S := Com K) (ι := ℕ × ℕ) (K := K) (fun s p => s p.1 p.2)
    (fun s p v => setAt s p.1 p.2 v) (by intro s p v q; simp [setAt_apply, Prod.ext_iff])
    (fun p q => q.1 ≤ p.1 ∧ q.2 ≤ p.2)
    (fun p s => pushDataCovTmp p.1 p.2 δ0 δ1 α (1 - α) data s)
    (by
      intro p s s' h
      rw [pushDataCovTmp_eq, pushDataCovTmp_eq]
      exact combine2_congr (fun a b ha hb _ => h (a, b) ⟨ha, hb⟩) (fun _ _ _ _ _ => rfl))
    (covPositions o0 o1) (nodup_covPositions _ _)
    (pairwise_covPositions _ _) out (i, j)
  simp only at key
  rw [key, pushDataCovTmp_eq]
  exact if_congr (mem_covPositions h0 h1) rfl rfl

/-- Closed form of the comoment push body. -/
def pushClosed2 (o0 o1 : ℕ) (w : K) (data out : Com K) : Com K := fun i j =>
  let α := w / (out 0 0 + w)
  let δ0 := data 1 0 - out 1 0
  let δ1 := data 0 1 - out 0 1
  if i = 0 ∧ j = 0 then out 0 0 + w
  else if i = 1 ∧ j = 0 then out 1 0 + δ0 * α
  else if i = 0 ∧ j = 1 then out 0 1 + δ1 * α
  else if i ≤ o0 ∧ j ≤ o1 then combine2 α δ0 δ1 out data i j
  else out i j

theorem pushDataCovBody_eq [CharZero K] (o0 o1 : ℕ) (h0 : 1 ≤ o0) (h1 : 1 ≤ o1) (w : K)
    (data out : Com K) :
    pushDataCovBody o0 o1 w data out =
      if w = 0 then some out
      else if out 0 0 + w = 0 then none
      else some (pushClosed2 o0 o1 w data out) := by
  unfold pushDataCovBody
  by_cases hw : w = 0
  · simp [hw]
  by_cases hz : out 0 0 + w = 0
  · simp [hw, hz, setAt_apply]
  have e00 : setAt out 0 0 (out 0 0 + w) 0 0 = out 0 0 + w := by simp [setAt_apply]
  have e10 : setAt out 0 0 (out 0 0 + w) 1 0 = out 1 0 := by simp [setAt_apply]
  have e01 : setAt out 0 0 (out 0 0 + w) 0 1 = out 0 1 := by simp [setAt_apply]
  simp only [hw, hz, e00, e10, e01, if_false, Option.some.injEq]
  funext i j
  rw [pushDataCov_loop o0 o1 h0 h1]
  have e01' : ∀ v, setAt (setAt out 0 0 (out 0 0 + w)) 1 0 v 0 1 = out 0 1 := by
    intro v; simp [setAt_apply]
  rw [e01']
  unfold pushClosed2
  simp only
  by_cases hij : 2 ≤ i + j
  · have n1 : ¬ (i = 0 ∧ j = 0) := by omega
    have n2 : ¬ (i = 1 ∧ j = 0) := by omega
    have n3 : ¬ (i = 0 ∧ j = 1) := by omega
    simp only [n1, n2, n3, if_false, hij, and_true]
    have hs : ∀ a b, 2 ≤ a + b → ∀ u v x, setAt (setAt (setAt out 0 0 u) 1 0 v) 0 1 x a b = out a b := by
      intro a b hab u v x
      have m1 : ¬ (a = 0 ∧ b = 0) := by omega
      have m2 : ¬ (a = 1 ∧ b = 0) := by omega
      have m3 : ¬ (a = 0 ∧ b = 1) := by omega
      simp [setAt_apply, Prod.ext_iff, m1, m2, m3]
    split_ifs with hle
    · exact combine2_congr (fun a b _ _ hab => hs a b hab _ _ _) (fun _ _ _ _ _ => rfl)
    · exact hs i j hij _ _ _
  · simp only [hij, and_false, if_false]
    have : (i = 0 ∧ j = 0) ∨ (i = 1 ∧ j = 0) ∨ (i = 0 ∧ j = 1) := by omega
    rcases this with ⟨rfl, rfl⟩ | ⟨rfl, rfl⟩ | ⟨rfl, rfl⟩ <;> simp [setAt_apply]

/-- A pair of weight `w` as a comoment array. -/
def singleton2 (x y w : K) : Com K := fun i j =>
  if i = 0 ∧ j = 0 then w else if i = 1 ∧ j = 0 then x else if i = 0 ∧ j = 1 then y else 0

theorem pushValCov_eq_pushDataCovBody [CharZero K] (o0 o1 : ℕ) (x y w : K) (out : Com K) :
    pushValCov o0 o1 x y w out = pushDataCovBody o0 o1 w (singleton2 x y w) out := by
  unfold pushValCov pushDataCovBody
  have s1 : singleton2 x y w 1 0 = x := by simp [singleton2]
  have s2 : singleton2 x y w 0 1 = y := by simp [singleton2]
  simp only [pushValCovTmp_eq, s1, s2, pushDataCovTmp_eq]
  have : ∀ (α δ0 δ1 : K) (o : Com K) (a b : ℕ), combine2 α δ0 δ1 o (fun _ _ => 0) a b =
      combine2 α δ0 δ1 o (singleton2 x y w) a b := by
    intro α δ0 δ1 o a b
    refine combine2_congr (fun _ _ _ _ _ => rfl) ?_
    intro a b _ _ hab
    have m1 : ¬ (a = 0 ∧ b = 0) := by omega
    have m2 : ¬ (a = 1 ∧ b = 0) := by omega
    have m3 : ¬ (a = 0 ∧ b = 1) := by omega
    simp [singleton2, m1, m2, m3]
  simp only [this]

end Cmomy
