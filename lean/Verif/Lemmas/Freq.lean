import Verif.Model.Freq
import Verif.Spec.Freq
import Mathlib.Data.List.Count
import Mathlib.Algebra.BigOperators.Group.List.Basic
import Mathlib.Algebra.Order.BigOperators.Group.List
import Mathlib.Tactic.Linarith

/-!
# Frequencies and indices
-/

namespace Cmomy.Freq

open Spec

/-- `positions` starting at label `d`. -/
def posFrom : ℕ → List ℕ → List ℕ
  | _, [] => []
  | d, f :: fs => List.replicate f d ++ posFrom (d + 1) fs

theorem posFrom_eq_drawn (d : ℕ) (fs : List ℕ) :
    posFrom d fs = drawn fs (List.range' d fs.length) := by
  induction fs generalizing d with
  | nil => rfl
  | cons f fs ih =>
    rw [posFrom, ih]
    simp [drawn, List.range'_succ]

theorem positions_eq (fs : List ℕ) : positions fs = posFrom 0 fs := by
  rw [posFrom_eq_drawn, positions, List.range_eq_range']

theorem length_posFrom (d : ℕ) (fs : List ℕ) : (posFrom d fs).length = fs.sum := by
  induction fs generalizing d with
  | nil => rfl
  | cons f fs ih => simp [posFrom, ih]

theorem mem_posFrom {d : ℕ} {fs : List ℕ} {k : ℕ} (hk : k ∈ posFrom d fs) :
    d ≤ k ∧ k < d + fs.length := by
  induction fs generalizing d with
  | nil => simp [posFrom] at hk
  | cons f fs ih =>
    rw [posFrom, List.mem_append] at hk
    rcases hk with hk | hk
    · have := (List.mem_replicate.1 hk).2
      subst this
      simp
    · have := ih hk
      simp only [List.length_cons]
      omega

theorem count_posFrom (d : ℕ) (fs : List ℕ) (k : ℕ) :
    (posFrom d fs).count (d + k) = fs.getD k 0 := by
  induction fs generalizing d k with
  | nil => simp [posFrom]
  | cons f fs ih =>
    rw [posFrom, List.count_append]
    cases k with
    | zero =>
      have : (posFrom (d + 1) fs).count d = 0 := by
        rw [List.count_eq_zero]
        intro h
        have := (mem_posFrom h).1
        omega
      simp [this]
    | succ k =>
      have h1 : (List.replicate f d).count (d + (k + 1)) = 0 := by
        rw [List.count_eq_zero]
        intro h
        have := (List.mem_replicate.1 h).2
        omega
      rw [h1, show d + (k + 1) = d + 1 + k by omega, ih]
      simp

theorem counts_positions (fs : List ℕ) : counts fs.length (positions fs) = fs := by
  apply List.ext_getElem
  · simp [counts]
  · intro i h1 h2
    have := count_posFrom 0 fs i
    rw [Nat.zero_add] at this
    simp only [counts, List.getElem_map, List.getElem_range, positions_eq, this]
    simp [h2]

theorem sorted_posFrom (d : ℕ) (fs : List ℕ) : (posFrom d fs).Pairwise (· ≤ ·) := by
  induction fs generalizing d with
  | nil => simp [posFrom]
  | cons f fs ih =>
    rw [posFrom, List.pairwise_append]
    refine ⟨List.pairwise_replicate.2 (by simp), ih _, ?_⟩
    intro a ha b hb
    have h1 := (List.mem_replicate.1 ha).2
    have h2 := (mem_posFrom hb).1
    omega

theorem sliceAssign_eq (arr : List ℕ) (a b v : ℕ) (hab : a ≤ b) (hb : b ≤ arr.length) :
    sliceAssign arr a b v = arr.take a ++ List.replicate (b - a) v ++ arr.drop b := by
  apply List.ext_getElem
  · simp [sliceAssign]; omega
  · intro i h1 h2
    simp only [sliceAssign, List.getElem_mapIdx]
    simp only [sliceAssign, List.length_mapIdx] at h1
    simp only [List.getElem_append, List.length_take, List.length_append, List.length_replicate,
      List.getElem_take, List.getElem_replicate, List.getElem_drop]
    split_ifs <;> first | rfl | omega | (congr 1; omega)

theorem freqToIndicesGo_eq (fs : List ℕ) (d count : ℕ) (out : List ℕ)
    (h : out.length = count + fs.sum) :
    freqToIndicesGo fs d count out = out.take count ++ posFrom d fs := by
  induction fs generalizing d count out with
  | nil =>
    simp only [List.sum_nil, Nat.add_zero] at h
    simp [freqToIndicesGo, posFrom, ← h]
  | cons f fs ih =>
    rw [List.sum_cons] at h
    rw [freqToIndicesGo, sliceAssign_eq _ _ _ _ (by omega) (by omega), ih _ _ _ (by
      simp only [List.length_append, List.length_take, List.length_replicate, List.length_drop]
      omega)]
    rw [posFrom, ← List.append_assoc]
    congr 1
    rw [List.take_append_of_le_length (by
      simp only [List.length_append, List.length_take, List.length_replicate]; omega)]
    rw [List.take_of_length_le (by
      simp only [List.length_append, List.length_take, List.length_replicate]; omega)]
    simp

theorem freqToIndicesRow_eq (fs out : List ℕ) (h : out.length = fs.sum) :
    freqToIndicesRow fs out = positions fs := by
  rw [freqToIndicesRow, freqToIndicesGo_eq _ _ _ _ (by omega), positions_eq]
  simp

/-- Normalised index. -/
theorem wrapIndex_nat {n i : ℕ} (h : i < n) : wrapIndex n (i : ℤ) = some i := by
  simp [wrapIndex, h]

theorem wrapIndex_eq {n : ℕ} {i : ℤ} (h1 : -(n : ℤ) ≤ i) (h2 : i < n) :
    wrapIndex n i = some (i % (n : ℤ)).toNat ∧ (i % (n : ℤ)).toNat < n := by
  have hn : (0 : ℤ) < n := by omega
  have hm1 := Int.emod_nonneg i hn.ne'
  have hm2 := Int.emod_lt_of_pos i hn
  refine ⟨?_, by omega⟩
  unfold wrapIndex
  by_cases h0 : 0 ≤ i
  · rw [if_pos ⟨h0, h2⟩, Int.emod_eq_of_lt h0 h2]
  · rw [if_neg (by omega), if_pos (by omega)]
    have : i % (n : ℤ) = i + n := by
      rw [← Int.add_emod_right]
      exact Int.emod_eq_of_lt (by omega) (by omega)
    rw [this]

theorem wrapIndex_none {n : ℕ} {i : ℤ} (h : i < -(n : ℤ)) : wrapIndex n i = none := by
  unfold wrapIndex
  rw [if_neg (by omega), if_neg (by omega)]

theorem indicesToFreqRow_eq (idx : List ℤ) (freq : List ℕ)
    (h : ∀ i ∈ idx, -(freq.length : ℤ) ≤ i ∧ i < freq.length) :
    indicesToFreqRow idx freq = some (freq.mapIdx (fun k f =>
      f + (idx.map (fun i => (i % (freq.length : ℤ)).toNat)).count k)) := by
  induction idx generalizing freq with
  | nil =>
    rw [indicesToFreqRow]
    congr 1
    apply List.ext_getElem <;> simp
  | cons i idx ih =>
    obtain ⟨h1, h2⟩ := h i List.mem_cons_self
    obtain ⟨e, hlt⟩ := wrapIndex_eq h1 h2
    have hlen : ∀ j, (freq.modify j (· + 1)).length = freq.length := by simp
    rw [indicesToFreqRow, e]
    simp only
    rw [ih _ (by intro i' hi'; rw [hlen]; exact h i' (List.mem_cons_of_mem _ hi'))]
    congr 1
    apply List.ext_getElem
    · simp
    · intro k hk1 hk2
      simp only [List.length_mapIdx, hlen] at hk1
      simp only [List.getElem_mapIdx, List.getElem_modify, hlen, List.map_cons,
        List.count_cons]
      by_cases hk : (i % (freq.length : ℤ)).toNat = k
      · simp [hk]; omega
      · simp [hk]

theorem indicesToFreqRow_zero {n : ℕ} (idx : List ℤ) (h : ∀ i ∈ idx, -(n : ℤ) ≤ i ∧ i < n) :
    indicesToFreqRow idx (List.replicate n 0) =
      some (counts n (idx.map (fun i => (i % (n : ℤ)).toNat))) := by
  rw [indicesToFreqRow_eq _ _ (by simpa using h)]
  congr 1
  apply List.ext_getElem
  · simp [counts]
  · intro k hk1 hk2
    simp [counts]

theorem indicesToFreqRow_none {n : ℕ} (idx : List ℤ) (freq : List ℕ) (hf : freq.length = n)
    (h2 : ∀ i ∈ idx, i < n)
    (h : ∃ i ∈ idx, i < -(n : ℤ)) : indicesToFreqRow idx freq = none := by
  induction idx generalizing freq with
  | nil => simp at h
  | cons i idx ih =>
    rw [indicesToFreqRow]
    by_cases hi : i < -(n : ℤ)
    · rw [wrapIndex_none (by rw [hf]; exact hi)]
    · obtain ⟨e, -⟩ := wrapIndex_eq (n := freq.length) (i := i) (by rw [hf]; omega)
        (by rw [hf]; exact h2 i List.mem_cons_self)
      rw [e]
      simp only
      refine ih _ (by simpa using hf) (fun j hj => h2 j (List.mem_cons_of_mem _ hj)) ?_
      obtain ⟨j, hj, hlt⟩ := h
      rcases List.mem_cons.1 hj with rfl | hj
      · exact absurd hlt hi
      · exact ⟨j, hj, hlt⟩

theorem rows_eq_some {α β : Type} {f : α → Option β} {g : α → β} {l : List α}
    (h : ∀ a ∈ l, f a = some (g a)) : rows f l = some (l.map g) := by
  induction l with
  | nil => rfl
  | cons a l ih =>
    rw [rows, h a List.mem_cons_self, ih (fun b hb => h b (List.mem_cons_of_mem _ hb))]
    rfl

theorem rows_eq_none {α β : Type} {f : α → Option β} {l : List α} (h : ∃ a ∈ l, f a = none) :
    rows f l = none := by
  induction l with
  | nil => simp at h
  | cons a l ih =>
    obtain ⟨b, hb, e⟩ := h
    rcases List.mem_cons.1 hb with rfl | hb
    · rw [rows, e]
    · rw [rows, ih ⟨b, hb, e⟩]
      cases f a <;> rfl

theorem count_counts_perm {n : ℕ} {idx : List ℕ} (h : ∀ i ∈ idx, i < n) :
    (positions (counts n idx)).Perm idx := by
  rw [List.perm_iff_count]
  intro k
  have := count_posFrom 0 (counts n idx) k
  rw [Nat.zero_add] at this
  rw [positions_eq, this]
  by_cases hk : k < n
  · simp [counts, hk]
  · have : idx.count k = 0 := by
      rw [List.count_eq_zero]
      intro hm
      exact hk (h k hm)
    rw [this]
    simp [counts, hk]

theorem sum_counts {n : ℕ} {idx : List ℕ} (h : ∀ i ∈ idx, i < n) :
    (counts n idx).sum = idx.length := by
  rw [← length_posFrom 0 (counts n idx), ← positions_eq]
  exact (count_counts_perm h).length_eq

theorem counts_perm {n : ℕ} {idx idx' : List ℕ} (h : idx.Perm idx') :
    counts n idx = counts n idx' := by
  unfold counts
  refine List.map_congr_left fun k _ => ?_
  exact h.count_eq k

theorem takeAt_append {α : Type*} (data : List α) (a b : List ℕ) :
    takeAt data (a ++ b) = takeAt data a ++ takeAt data b := by
  simp [takeAt, List.filterMap_append]

theorem takeAt_perm {α : Type*} (data : List α) {a b : List ℕ} (h : a.Perm b) :
    (takeAt data a).Perm (takeAt data b) := h.filterMap _

theorem takeAt_posFrom {α : Type*} (fs : List ℕ) (pre data : List α) :
    takeAt (pre ++ data) (posFrom pre.length fs) = drawn fs data := by
  induction fs generalizing pre data with
  | nil => rfl
  | cons f fs ih =>
    cases data with
    | nil =>
      simp only [drawn, List.zip_nil_right, List.flatMap_nil]
      rw [takeAt, List.filterMap_eq_nil_iff]
      intro i hi
      have := (mem_posFrom hi).1
      simpa using this
    | cons x data =>
      rw [posFrom, takeAt_append]
      have h1 : takeAt (pre ++ x :: data) (List.replicate f pre.length) = List.replicate f x := by
        simp [takeAt]
      have h2 := ih (pre ++ [x]) data
      simp only [List.append_assoc, List.singleton_append, List.length_append,
        List.length_singleton] at h2
      rw [h1, h2]
      simp [drawn]

theorem takeAt_positions {α : Type*} (fs : List ℕ) (data : List α) :
    takeAt data (positions fs) = drawn fs data := by
  rw [positions_eq]
  exact takeAt_posFrom fs [] data

theorem takeAt_perm_drawn {α : Type*} {n : ℕ} {idx : List ℕ} (h : ∀ i ∈ idx, i < n)
    (data : List α) : (takeAt data idx).Perm (drawn (counts n idx) data) := by
  rw [← takeAt_positions]
  exact takeAt_perm data (count_counts_perm h).symm

theorem drawn_jackknife_aux {α : Type*} (data : List α) (r s : ℕ) :
    drawn ((List.range' s data.length).map (fun c => if c = s + r then 0 else 1)) data =
      data.eraseIdx r := by
  induction data generalizing r s with
  | nil => rfl
  | cons x data ih =>
    rw [List.length_cons, List.range'_succ, List.map_cons]
    simp only [drawn, List.zip_cons_cons, List.flatMap_cons]
    cases r with
    | zero =>
      simp only [Nat.add_zero, if_true, List.replicate_zero, List.nil_append,
        List.eraseIdx_cons_zero]
      have hmap : (List.range' (s + 1) data.length).map (fun c => if c = s then 0 else 1) =
          List.replicate data.length 1 := by
        apply List.ext_getElem
        · simp
        · intro i h1 h2
          simp
          omega
      rw [hmap]
      clear hmap ih
      induction data with
      | nil => rfl
      | cons y data ih' => simp [List.replicate_succ, ih']
    | succ r =>
      have := ih r (s + 1)
      rw [drawn, show s + 1 + r = s + (r + 1) by omega] at this
      rw [this]
      simp

theorem drawn_jackknife {α : Type*} (data : List α) (r : ℕ) :
    drawn ((List.range data.length).map (fun c => if c = r then 0 else 1)) data =
      data.eraseIdx r := by
  have := drawn_jackknife_aux data r 0
  rwa [Nat.zero_add, ← List.range_eq_range'] at this

end Cmomy.Freq
