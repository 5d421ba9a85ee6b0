import Verif.Lemmas.Grouped
import Mathlib.Data.List.Sort
import Mathlib.Data.List.Nodup

/-!
# Factorisation: list lemmas
-/

set_option linter.unusedSectionVars false

namespace Cmomy.Factor

open Spec

section

variable {α : Type*} [DecidableEq α]

theorem mem_firstSeen {l : List α} {a : α} : a ∈ firstSeen l ↔ a ∈ l := by
  induction l with
  | nil => simp [firstSeen]
  | cons b l ih =>
    rw [firstSeen, List.mem_cons, List.mem_cons, List.mem_filter, ih]
    by_cases h : a = b <;> simp [h]

theorem nodup_firstSeen (l : List α) : (firstSeen l).Nodup := by
  induction l with
  | nil => simp [firstSeen]
  | cons b l ih =>
    rw [firstSeen, List.nodup_cons]
    exact ⟨by simp, ih.filter _⟩

end

section

variable {α : Type*} [LinearOrder α]

theorem pairwise_sort_le (l : List α) : (l.insertionSort (· ≤ ·)).Pairwise (· ≤ ·) :=
  List.pairwise_insertionSort (· ≤ ·) l

theorem pairwise_lt_of_nodup {l : List α} (h : l.Pairwise (· ≤ ·)) (hn : l.Nodup) :
    l.Pairwise (· < ·) :=
  (h.and hn).imp (fun h => lt_of_le_of_ne h.1 h.2)

theorem eq_of_pairwise_lt {l l' : List α} (h : l.Pairwise (· < ·)) (h' : l'.Pairwise (· < ·))
    (hm : ∀ a, a ∈ l ↔ a ∈ l') : l = l' := by
  refine List.Perm.eq_of_pairwise (le := (· ≤ ·)) (fun a b _ _ h1 h2 => le_antisymm h1 h2)
    (h.imp le_of_lt) (h'.imp le_of_lt) ?_
  exact (List.perm_ext_iff_of_nodup (h.imp ne_of_lt) (h'.imp ne_of_lt)).2 hm

/-- In a list whose values do not decrease, the first position of `v` is the number of smaller
values. -/
theorem idxOf_eq_countP {l : List α} (h : l.Pairwise (· ≤ ·)) {v : α} (hv : v ∈ l) :
    l.idxOf v = l.countP (fun a => decide (a < v)) := by
  induction l with
  | nil => simp at hv
  | cons a l ih =>
    rw [List.pairwise_cons] at h
    by_cases hav : a = v
    · subst hav
      rw [List.idxOf_cons_self, Eq.comm, List.countP_eq_zero]
      intro b hb
      simp only [decide_eq_true_eq, not_lt]
      rcases List.mem_cons.1 hb with rfl | hb
      · exact le_rfl
      · exact h.1 b hb
    · have hv' : v ∈ l := by
        rcases List.mem_cons.1 hv with h | h
        · exact absurd h.symm hav
        · exact h
      rw [List.idxOf_cons_ne _ hav, ih h.2 hv', List.countP_cons]
      have := lt_of_le_of_ne (h.1 v hv') hav
      simp [this]

theorem countP_le_eq (l : List α) (v : α) :
    l.countP (fun a => decide (a ≤ v)) = l.countP (fun a => decide (a < v)) + l.count v := by
  induction l with
  | nil => rfl
  | cons a l ih =>
    rw [List.countP_cons, List.countP_cons, List.count_cons, ih]
    rcases lt_trichotomy a v with h | h | h
    · have h1 := h.le
      have h2 := h.ne
      simp [h, h1, h2]; omega
    · simp [h]; omega
    · have h1 := not_le.2 h
      have h2 := h.ne'
      have h3 := not_lt.2 h.le
      simp [h1, h2, h3]

/-- The positions carrying `v` are contiguous when the values do not decrease. -/
theorem slice_eq_filter {β : Type*} (f : β → α) (l : List β)
    (h : (l.map f).Pairwise (· ≤ ·)) (v : α) :
    slice l ((l.map f).countP (fun a => decide (a < v)))
      ((l.map f).countP (fun a => decide (a ≤ v))) = l.filter (fun b => decide (f b = v)) := by
  induction l with
  | nil => rfl
  | cons b l ih =>
    rw [List.map_cons, List.pairwise_cons] at h
    have ih := ih h.2
    simp only [List.map_cons, List.countP_cons, List.filter_cons]
    rcases lt_trichotomy (f b) v with hb | hb | hb
    · have h1 := hb.le
      have h2 := hb.ne
      simp only [hb, h1, h2, decide_true, if_true, decide_false, Bool.false_eq_true, if_false]
      unfold slice at ih ⊢
      rw [List.take_succ_cons, List.drop_succ_cons, ih]
    · have hz : (l.map f).countP (fun a => decide (a < v)) = 0 := by
        rw [List.countP_eq_zero]
        intro a ha
        simp only [decide_eq_true_eq, not_lt]
        rw [← hb]; exact h.1 a ha
      rw [hz] at ih ⊢
      simp only [hb, le_refl, lt_irrefl, decide_true, if_true, decide_false, Bool.false_eq_true,
        if_false]
      unfold slice at ih ⊢
      rw [List.take_succ_cons]
      simp only [List.drop_zero, Nat.add_zero] at ih ⊢
      rw [ih]
    · have h1 := not_le.2 hb
      have h2 := hb.ne'
      have h3 := not_lt.2 hb.le
      have hz : (l.map f).countP (fun a => decide (a ≤ v)) = 0 := by
        rw [List.countP_eq_zero]
        intro a ha
        simp only [decide_eq_true_eq, not_le]
        exact lt_of_lt_of_le hb (h.1 a ha)
      rw [hz] at ih ⊢
      simp only [h1, h2, h3, decide_false, Bool.false_eq_true, if_false, Nat.add_zero]
      unfold slice at ih ⊢
      simpa using ih

end

/-! ### codes to index tables -/

/-- Kept codes are the codes at the kept positions. -/
theorem filter_eq_map_kept (codes : List ℤ) :
    codes.filter (fun c => decide (0 ≤ c)) =
      (keptPositions codes).map (fun i => (codes[i]?).getD 0) := by
  have key : ∀ (l : List ℤ), l.filter (fun c => decide (0 ≤ c)) =
      ((List.range l.length).filter (fun i => decide (0 ≤ (l[i]?).getD (-1)))).map
        (fun i => (l[i]?).getD 0) := by
    intro l
    induction l with
    | nil => rfl
    | cons c l ih =>
      rw [List.length_cons, List.range_succ_eq_map, List.filter_cons, List.filter_cons,
        List.filter_map]
      have h1 : ((fun i => decide (0 ≤ ((c :: l)[i]?).getD (-1))) ∘ Nat.succ) =
          (fun i => decide (0 ≤ (l[i]?).getD (-1))) := by
        funext i; simp
      have h2 : ((fun i => ((c :: l)[i]?).getD 0) ∘ Nat.succ) =
          (fun i => (l[i]?).getD 0) := by
        funext i; simp
      by_cases hc : 0 ≤ c
      · simp only [hc, decide_true, if_true, List.getElem?_cons_zero, Option.getD_some,
          List.map_cons, List.map_map, h1, h2, ih]
      · simp only [hc, decide_false, if_false, List.getElem?_cons_zero, Option.getD_some,
          Bool.false_eq_true, List.map_map, h1, h2, ih]
  exact key codes

theorem keptPositions_of_all {codes : List ℤ} (h : codes.all (fun c => decide (0 ≤ c)) = true) :
    keptPositions codes = List.range codes.length := by
  unfold keptPositions
  rw [List.filter_eq_self]
  intro i hi
  have hi := List.mem_range.1 hi
  rw [List.all_eq_true] at h
  have := h codes[i] (List.getElem_mem hi)
  simpa [hi] using this

theorem nodup_keptPositions (codes : List ℤ) : (keptPositions codes).Nodup :=
  List.nodup_range.filter _

/-- Code of a position. -/
def codeAt (codes : List ℤ) (i : ℕ) : ℤ := (codes[i]?).getD 0

/-- Both branches of the code list, in sorted order, the kept positions. -/
theorem codesToIndex_eq {argsort : List ℤ → List ℕ} (ha : IsArgsort argsort) (codes : List ℤ) :
    ∃ idx, idx.Perm (keptPositions codes) ∧
      (idx.map (codeAt codes)).Pairwise (· ≤ ·) ∧
      codesToIndex argsort codes = (idx,
        (uniqueStartCount (idx.map (codeAt codes))).map (fun p => p.1),
        (uniqueStartCount (idx.map (codeAt codes))).map (fun p => p.1 + p.2)) := by
  set keep := keptPositions codes with hkeep
  set kc := codes.filter (fun c => decide (0 ≤ c)) with hkc
  have hkc' : kc = keep.map (codeAt codes) := filter_eq_map_kept codes
  have hlen : kc.length = keep.length := by rw [hkc', List.length_map]
  obtain ⟨hperm, hsort⟩ := ha kc
  have hlt : ∀ i ∈ argsort kc, i < keep.length := by
    intro i hi
    have := hperm.mem_iff.1 hi
    rw [List.mem_range, hlen] at this
    exact this
  have hmap : (argsort kc).map (fun i => (kc[i]?).getD 0) =
      ((argsort kc).map (fun i => (keep[i]?).getD 0)).map (codeAt codes) := by
    rw [List.map_map]
    refine List.map_congr_left fun i hi => ?_
    have := hlt i hi
    simp [hkc', this]
  refine ⟨(argsort kc).map (fun i => (keep[i]?).getD 0), ?_, ?_, ?_⟩
  · refine (hperm.map _).trans ?_
    rw [hlen]
    have : (List.range keep.length).map (fun i => (keep[i]?).getD 0) = keep := by
      apply List.ext_getElem
      · simp
      · intro i h1 h2
        simp [h2]
    rw [this]
  · rw [← hmap]; exact hsort
  · unfold codesToIndex
    by_cases hall : codes.all (fun c => decide (0 ≤ c)) = true
    · have hfe : codes = kc := by
        rw [hkc, Eq.comm, List.filter_eq_self]
        rw [List.all_eq_true] at hall
        exact hall
      have hkr : keep = List.range codes.length := keptPositions_of_all hall
      have hidx : (argsort kc).map (fun i => (keep[i]?).getD 0) = argsort kc := by
        conv_rhs => rw [← List.map_id (argsort kc)]
        refine List.map_congr_left fun i hi => ?_
        have h1 := hlt i hi
        have h2 : i < codes.length := by rw [hkr, List.length_range] at h1; exact h1
        simp [hkr, h2]
      simp only [hall, if_true]
      rw [← hmap, hidx, ← hfe]
    · simp only [hall, if_false, Bool.false_eq_true]
      rw [← hkc, ← hkeep, hmap]

theorem mem_keptPositions {codes : List ℤ} {i : ℕ} :
    i ∈ keptPositions codes ↔ i < codes.length ∧ 0 ≤ codeAt codes i := by
  unfold keptPositions codeAt
  rw [List.mem_filter, List.mem_range]
  constructor
  · rintro ⟨h1, h2⟩
    exact ⟨h1, by simpa [h1] using h2⟩
  · rintro ⟨h1, h2⟩
    exact ⟨h1, by simpa [h1] using h2⟩

theorem countP_codeAt (codes : List ℤ) (p : ℤ → Bool) :
    ((keptPositions codes).map (codeAt codes)).countP p =
      codes.countP (fun c => decide (0 ≤ c) && p c) := by
  have := filter_eq_map_kept codes
  unfold codeAt
  rw [← this, List.countP_filter]
  congr 1
  funext c
  rw [Bool.and_comm]

/-- Tables for codes that cover exactly `0 .. G-1`. -/
theorem codesToIndex_spec {argsort : List ℤ → List ℕ} (ha : IsArgsort argsort) (codes : List ℤ)
    (G : ℕ) (hG : ∀ v : ℤ, (v ∈ codes ∧ 0 ≤ v) ↔ (0 ≤ v ∧ v < G)) :
    ∃ idx, idx.Perm (keptPositions codes) ∧
      (idx.map (codeAt codes)).Pairwise (· ≤ ·) ∧
      codesToIndex argsort codes = (idx,
        (List.range G).map (fun g : ℕ => codes.countP (fun c => decide (0 ≤ c ∧ c < (g : ℤ)))),
        (List.range G).map (fun g : ℕ => codes.countP (fun c => decide (0 ≤ c ∧ c ≤ (g : ℤ))))) ∧
      ∀ g : ℕ, slice idx (codes.countP (fun c => decide (0 ≤ c ∧ c < (g : ℤ))))
        (codes.countP (fun c => decide (0 ≤ c ∧ c ≤ (g : ℤ)))) =
          idx.filter (fun i => decide (codeAt codes i = g)) := by
  obtain ⟨idx, hp, hs, e⟩ := codesToIndex_eq ha codes
  have hlt : ∀ v : ℤ, (idx.map (codeAt codes)).countP (fun a => decide (a < v)) =
      codes.countP (fun c => decide (0 ≤ c ∧ c < v)) := by
    intro v
    rw [(hp.map _).countP_eq, countP_codeAt]
    congr 1; funext c; rw [Bool.decide_and]
  have hle : ∀ v : ℤ, (idx.map (codeAt codes)).countP (fun a => decide (a ≤ v)) =
      codes.countP (fun c => decide (0 ≤ c ∧ c ≤ v)) := by
    intro v
    rw [(hp.map _).countP_eq, countP_codeAt]
    congr 1; funext c; rw [Bool.decide_and]
  have hmem : ∀ v, v ∈ idx.map (codeAt codes) ↔ 0 ≤ v ∧ v < G := by
    intro v
    rw [(hp.map _).mem_iff, show (keptPositions codes).map (codeAt codes) =
      codes.filter (fun c => decide (0 ≤ c)) from (filter_eq_map_kept codes).symm, List.mem_filter]
    simpa using hG v
  have hU : (firstSeen (idx.map (codeAt codes))).insertionSort (· ≤ ·) =
      (List.range G).map (fun g : ℕ => (g : ℤ)) := by
    refine eq_of_pairwise_lt (pairwise_lt_of_nodup (pairwise_sort_le _)
      ((List.perm_insertionSort _ _).nodup_iff.2 (nodup_firstSeen _))) ?_ ?_
    · rw [List.pairwise_map]
      exact List.pairwise_lt_range.imp (fun h => by exact_mod_cast h)
    · intro v
      rw [List.mem_insertionSort, mem_firstSeen, hmem, List.mem_map]
      constructor
      · rintro ⟨h1, h2⟩
        exact ⟨v.toNat, List.mem_range.2 (by omega), by omega⟩
      · rintro ⟨g, hg, rfl⟩
        have := List.mem_range.1 hg
        omega
  refine ⟨idx, hp, hs, ?_, ?_⟩
  · rw [e]
    unfold uniqueStartCount
    rw [hU]
    simp only [List.map_map]
    congr 2
    · refine List.map_congr_left fun g hg => ?_
      have hg := List.mem_range.1 hg
      simp only [Function.comp_apply]
      rw [idxOf_eq_countP hs ((hmem _).2 ⟨by omega, by omega⟩), hlt]
    · refine List.map_congr_left fun g hg => ?_
      have hg := List.mem_range.1 hg
      simp only [Function.comp_apply]
      rw [idxOf_eq_countP hs ((hmem _).2 ⟨by omega, by omega⟩), ← countP_le_eq, hle]
  · intro g
    have := slice_eq_filter (codeAt codes) idx hs (g : ℤ)
    rw [hlt, hle] at this
    exact this

/-! ### factorize -/

section

variable {α : Type*} [LinearOrder α]

theorem mem_groups (sort : Bool) (xs : List (Option α)) (a : α) :
    a ∈ (factorize sort xs).2 ↔ some a ∈ xs := by
  have : a ∈ firstSeen (xs.filterMap id) ↔ some a ∈ xs := by
    rw [mem_firstSeen, List.mem_filterMap]
    simp
  unfold factorize
  cases sort with
  | true => simpa using this
  | false => simpa using this

theorem nodup_groups (sort : Bool) (xs : List (Option α)) : (factorize sort xs).2.Nodup := by
  unfold factorize
  cases sort with
  | true => exact (List.perm_insertionSort _ _).nodup_iff.2 (nodup_firstSeen (xs.filterMap id))
  | false => exact nodup_firstSeen (xs.filterMap id)

theorem sorted_groups (xs : List (Option α)) : (factorize true xs).2.Pairwise (· < ·) :=
  pairwise_lt_of_nodup (pairwise_sort_le _) (nodup_groups true xs)

theorem length_codes (sort : Bool) (xs : List (Option α)) :
    (factorize sort xs).1.length = xs.length := by
  simp [factorize]

theorem codes_eq (sort : Bool) (xs : List (Option α)) :
    (factorize sort xs).1 = xs.map (codeOf (factorize sort xs).2) := rfl

theorem code_eq_iff (sort : Bool) (xs : List (Option α)) (i : ℕ) (hi : i < xs.length) (g : ℕ)
    (hg : g < (factorize sort xs).2.length) :
    (factorize sort xs).1[i]'(by rw [length_codes]; exact hi) = (g : ℤ) ↔
      xs[i] = some (factorize sort xs).2[g] := by
  have hc : (factorize sort xs).1[i]'(by rw [length_codes]; exact hi) = codeOf (factorize sort xs).2 xs[i] := by
    simp [codes_eq]
  rw [hc]
  have hx : xs[i] ∈ xs := List.getElem_mem hi
  cases hxi : xs[i] with
  | none => simp [codeOf]
  | some a =>
    rw [hxi] at hx
    have ha := (mem_groups sort xs a).2 hx
    simp only [codeOf, Nat.cast_inj, Option.some.injEq]
    constructor
    · intro h
      subst h
      exact (List.getElem_idxOf (List.idxOf_lt_length_iff.2 ha)).symm
    · rintro rfl
      exact List.Nodup.idxOf_getElem (nodup_groups sort xs) g hg

theorem code_eq_neg_iff (sort : Bool) (xs : List (Option α)) (i : ℕ) (hi : i < xs.length) :
    (factorize sort xs).1[i]'(by rw [length_codes]; exact hi) < 0 ↔ xs[i] = none := by
  have hc : (factorize sort xs).1[i]'(by rw [length_codes]; exact hi) = codeOf (factorize sort xs).2 xs[i] := by
    simp [codes_eq]
  rw [hc]
  cases xs[i] with
  | none => simp [codeOf]
  | some a => simp [codeOf]

theorem mem_codes_iff (sort : Bool) (xs : List (Option α)) (v : ℤ) :
    (v ∈ (factorize sort xs).1 ∧ 0 ≤ v) ↔ (0 ≤ v ∧ v < (factorize sort xs).2.length) := by
  rw [codes_eq, List.mem_map]
  constructor
  · rintro ⟨⟨x, hx, rfl⟩, h⟩
    cases x with
    | none => simp [codeOf] at h
    | some a =>
      refine ⟨h, ?_⟩
      have := List.idxOf_lt_length_iff.2 ((mem_groups sort xs a).2 hx)
      simpa [codeOf] using this
  · rintro ⟨h1, h2⟩
    refine ⟨⟨some ((factorize sort xs).2[v.toNat]'(by omega)), ?_, ?_⟩, h1⟩
    · exact (mem_groups sort xs _).1 (List.getElem_mem _)
    · simp only [codeOf]
      rw [List.Nodup.idxOf_getElem (nodup_groups sort xs) v.toNat (by omega)]
      omega

end

end Cmomy.Factor
