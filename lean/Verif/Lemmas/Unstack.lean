import Verif.Model.Unstack
import Verif.Lemmas.LabelledObject

/-!
# Unstacking
-/

namespace Cmomy.Labelled

open Nd Spec

variable {δ α : Type} [DecidableEq δ]

theorem length_unravel (sizes : List ℕ) (j : ℕ) : (unravel sizes j).length = sizes.length := by
  induction sizes generalizing j with
  | nil => rfl
  | cons n ns ih => simp [unravel, ih]

theorem unravel_inj {sizes : List ℕ} {j j' : ℕ} (hj : j < sizes.prod) (hj' : j' < sizes.prod)
    (h : unravel sizes j = unravel sizes j') : j = j' := by
  induction sizes generalizing j j' with
  | nil => simp at hj hj'; omega
  | cons n ns ih =>
    rw [List.prod_cons] at hj hj'
    have hL : 0 < ns.prod := by
      rcases Nat.eq_zero_or_pos ns.prod with h | h
      · rw [h] at hj; omega
      · exact h
    simp only [unravel, List.cons.injEq] at h
    have h2 := ih (Nat.mod_lt _ hL) (Nat.mod_lt _ hL) h.2
    rw [← Nat.div_add_mod j ns.prod, ← Nat.div_add_mod j' ns.prod, h.1, h2]

/-- Every tuple within the sizes is met. -/
theorem exists_unravel {sizes t : List ℕ} (hl : t.length = sizes.length)
    (ht : ∀ i < sizes.length, t.getD i 0 < sizes.getD i 0) : ∃ j < sizes.prod, unravel sizes j = t := by
  induction sizes generalizing t with
  | nil => exact ⟨0, by simp, by simp at hl; simp [hl, unravel]⟩
  | cons n ns ih =>
    cases t with
    | nil => simp at hl
    | cons v t =>
      obtain ⟨j, hj, e⟩ := ih (t := t) (by simpa using hl) fun i hi => by
        have := ht (i + 1) (by simpa using hi)
        simpa using this
      have hv : v < n := by simpa using ht 0 (by simp)
      refine ⟨v * ns.prod + j, ?_, ?_⟩
      · rw [List.prod_cons]
        calc v * ns.prod + j < v * ns.prod + ns.prod := by omega
          _ = (v + 1) * ns.prod := by ring
          _ ≤ n * ns.prod := Nat.mul_le_mul_right _ hv
      · have hL : 0 < ns.prod := by omega
        simp only [unravel]
        rw [Nat.add_comm, Nat.add_mul_div_right _ _ hL, Nat.div_eq_of_lt hj, Nat.add_mul_mod_self_right,
          Nat.mod_eq_of_lt hj, e, Nat.zero_add]

theorem product_mem {names : List δ} {sizes t : List ℕ} (hl : t.length = sizes.length)
    (ht : ∀ i < sizes.length, t.getD i 0 < sizes.getD i 0) : t ∈ (MultiIndex.product names sizes).codes := by
  obtain ⟨j, hj, e⟩ := exists_unravel hl ht
  exact List.mem_map.2 ⟨j, List.mem_range.2 hj, e⟩

omit [DecidableEq δ] in
theorem product_nodup (names : List δ) (sizes : List ℕ) : (MultiIndex.product names sizes).codes.Nodup := by
  refine List.Nodup.map_on ?_ List.nodup_range
  intro j hj j' hj' h
  exact unravel_inj (List.mem_range.1 hj) (List.mem_range.1 hj') h

theorem product_fits {names : List δ} {sizes : List ℕ} (hn : names.Nodup) (hl : sizes.length = names.length)
    (hpos : ∀ s ∈ sizes, 0 < s) : (MultiIndex.product names sizes).Fits sizes.prod := by
  refine ⟨hn, hl, by simp [MultiIndex.product], ?_, ?_⟩
  · intro t ht
    obtain ⟨j, hj, rfl⟩ := List.mem_map.1 ht
    refine ⟨by rw [length_unravel, hl]; rfl, fun i hi => ?_⟩
    exact unravel_lt (List.mem_range.1 hj) (by rw [hl]; exact hi)
  · intro i hi v hv
    have hi' : i < sizes.length := by rw [hl]; exact hi
    refine ⟨(List.replicate sizes.length 0).set i v, product_mem (by simp) fun k hk => ?_, ?_⟩
    · by_cases hki : k = i
      · subst hki
        rw [List.getD_eq_getElem _ _ (by simpa using hk), List.getElem_set_self]
        exact hv
      · rw [List.getD_eq_getElem _ _ (by simpa using hk), List.getElem_set_ne (Ne.symm hki), List.getElem_replicate,
          List.getD_eq_getElem _ _ hk]
        exact hpos _ (List.getElem_mem hk)
    · rw [List.getD_eq_getElem _ _ (by simpa using hi'), List.getElem_set_self]

theorem unstack_ok {x : DataArray δ α} {dim : δ} {ix : MultiIndex δ} (fill : α) (hd : dim ∈ x.dims)
    (hf : ix.Fits (x.size dim)) (hnew : ∀ d ∈ ix.names, d ∉ x.dims) (hn : ix.codes.Nodup) :
    ∃ y, x.unstack dim ix fill = .ok y ∧ y.dims = x.dims.filter (fun d => decide (d ≠ dim)) ++ ix.names ∧
      (∀ d ∈ ix.names, y.size d = ix.sizes.getD (ix.names.idxOf d) 0) ∧ (∀ d ∈ x.dims, y.size d = x.size d) ∧
      ∀ c, entry y c = if ix.names.map c ∈ ix.codes then
        entry x (Function.update c dim (ix.codes.idxOf (ix.names.map c))) else fill := by
  unfold DataArray.unstack
  rw [if_neg (by simpa using hd), if_neg (by
    rintro (h | ⟨d, h1, h2⟩)
    · exact h hf
    · exact hnew d h1 h2), if_neg (by simpa using hn)]
  refine ⟨_, rfl, rfl, fun d hd => if_pos hd, fun d hd => if_neg fun h => hnew d h hd, fun c => ?_⟩
  unfold entry
  have e : ((x.dims.filter (fun d => decide (d ≠ dim)) ++ ix.names).map c).drop
      (x.dims.filter (fun d => decide (d ≠ dim))).length = ix.names.map c := by
    rw [List.map_append, List.drop_left' (by simp)]
  show (if _ ∈ ix.codes then _ else _) = _
  rw [e]
  split_ifs with h
  · refine congrArg x.data (List.map_congr_left fun d hd => ?_)
    by_cases hdd : d = dim
    · subst hdd
      rw [if_pos rfl, Function.update_self]
    · rw [if_neg hdd, Function.update_of_ne hdd]
      have hm : d ∈ x.dims.filter (fun d => decide (d ≠ dim)) := List.mem_filter.2 ⟨hd, by simpa using hdd⟩
      have hi := List.idxOf_lt_length_of_mem hm
      rw [List.map_append, List.getD_append _ _ _ _ (by simpa using hi), List.getD_eq_getElem _ _ (by simpa using hi),
        List.getElem_map, List.getElem_idxOf]
  · rfl

end Cmomy.Labelled
