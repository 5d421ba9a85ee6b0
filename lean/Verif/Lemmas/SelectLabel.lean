import Verif.Spec.SelectLabel
import Verif.Lemmas.LabelledObject
import Verif.Lemmas.AxisOps

/-!
# Selecting by label
-/

namespace Cmomy.Labelled

open Nd Spec

variable {δ α κ : Type} [DecidableEq δ] [DecidableEq κ]

/-- The selection by position. -/
def toSel (labels : List κ) : LabelSel κ → Sel
  | .one l => .int (labels.idxOf l)
  | .many ls => .list (ls.map fun l => (labels.idxOf l : ℤ))
  | .upto first last => .slice (some (labels.idxOf first)) (some (labels.idxOf last + 1)) none

/-- The positions. -/
def toPos (labels : List κ) : LabelSel κ → List ℕ
  | .one l => [labels.idxOf l]
  | .many ls => ls.map labels.idxOf
  | .upto first last => (List.range (labels.idxOf last + 1 - labels.idxOf first)).map (· + labels.idxOf first)

theorem getElem?_idxOf {labels : List κ} {l : κ} (h : l ∈ labels) : labels[labels.idxOf l]? = some l := by
  have hi := List.idxOf_lt_length_of_mem h
  rw [List.getElem?_eq_getElem hi, List.getElem_idxOf]

theorem place_ok {labels : List κ} (hn : labels.Nodup) {s : LabelSel κ} (hk : Known labels s) :
    s.place labels = .ok (toSel labels s) := by
  cases s with
  | one l =>
    rw [LabelSel.place, if_neg (by simpa using hn), if_pos (show l ∈ labels from hk)]
    rfl
  | many ls =>
    rw [LabelSel.place, if_neg (by simpa using hn), if_pos (show ∀ l ∈ ls, l ∈ labels from hk)]
    rfl
  | upto first last =>
    rw [LabelSel.place, if_neg (by simpa using ⟨hn, hk.1, hk.2⟩)]
    rfl

theorem isPosition_toSel (labels : List κ) (s : LabelSel κ) : isPosition (toSel labels s) = isLabel s := by
  cases s <;> rfl

theorem toSel_positions {labels : List κ} {s : LabelSel κ} (hk : Known labels s) :
    Positions labels.length (toSel labels s) (toPos labels s) := by
  have wr : ∀ l ∈ labels, InRange labels.length (labels.idxOf l) ∧ wrap labels.length (labels.idxOf l) = labels.idxOf l := by
    intro l hl
    have hi := List.idxOf_lt_length_of_mem hl
    refine ⟨⟨by omega, by omega⟩, ?_⟩
    unfold wrap
    rw [Int.emod_eq_of_lt (by omega) (by omega)]
    simp
  cases s with
  | one l => exact ⟨(wr l hk).1, by rw [(wr l hk).2]; rfl⟩
  | many ls =>
    refine ⟨fun z hz => ?_, ?_⟩
    · obtain ⟨l, hl, rfl⟩ := List.mem_map.1 hz
      exact (wr l (hk l hl)).1
    · show ls.map _ = List.map _ (ls.map _)
      rw [List.map_map]
      exact List.map_congr_left fun l hl => (wr l (hk l hl)).2.symm
  | upto first last =>
    have h1 := List.idxOf_lt_length_of_mem hk.1
    have h2 := List.idxOf_lt_length_of_mem hk.2
    refine ⟨by simp, .inl ⟨by simp, ?_, fun p => ?_⟩⟩
    · show List.Pairwise _ (List.map _ _)
      rw [List.pairwise_map]
      exact List.pairwise_lt_range.imp fun h => by omega
    · show p ∈ List.map _ _ ↔ _
      have b1 : sliceBound labels.length (labels.idxOf first) = labels.idxOf first := if_neg (by omega)
      have b2 : sliceBound labels.length (labels.idxOf last + 1) = labels.idxOf last + 1 := if_neg (by omega)
      simp only [List.mem_map, List.mem_range, Option.map_some, Option.getD_some, Option.getD_none, Option.mem_def,
        Option.some.injEq, forall_eq', b1, b2, one_dvd, and_true]
      constructor
      · rintro ⟨k, hk, rfl⟩
        refine ⟨by omega, ?_, ?_⟩
        · rw [max_eq_right (by omega)]; omega
        · omega
      · rintro ⟨-, h3, h4⟩
        rw [max_eq_right (by omega)] at h3
        exact ⟨p - labels.idxOf first, by omega, by omega⟩

theorem toPos_asked {labels : List κ} {s : LabelSel κ} (hk : Known labels s) (new : ℕ)
    (h : isLabel s = false → new < (toPos labels s).length) :
    LabelAsked labels s new (if isLabel s then (toPos labels s).getD 0 0 else (toPos labels s).getD new 0) := by
  cases s with
  | one l => exact getElem?_idxOf hk
  | many ls =>
    have hl : new < ls.length := by simpa [toPos] using h rfl
    refine ⟨ls[new], List.getElem?_eq_getElem hl, ?_⟩
    show labels[(ls.map labels.idxOf).getD new 0]? = _
    rw [List.getD_eq_getElem _ _ (by simpa using hl), List.getElem_map]
    exact getElem?_idxOf (hk _ (List.getElem_mem hl))
  | upto first last =>
    have hl := h rfl
    refine ⟨labels.idxOf first, getElem?_idxOf hk.1, ?_⟩
    show (toPos labels (.upto first last)).getD new 0 = _
    rw [List.getD_eq_getElem _ _ hl]
    simp [toPos, Nat.add_comm]

theorem toPos_size {labels : List κ} {s : LabelSel κ} (hk : Known labels s) :
    AskedSize labels s (toPos labels s).length := by
  cases s with
  | one l => trivial
  | many ls => simp [AskedSize, toPos]
  | upto first last =>
    exact ⟨_, _, getElem?_idxOf hk.1, getElem?_idxOf hk.2, by simp [toPos]⟩

omit [DecidableEq κ] in
theorem getElem?_unique {labels : List κ} (hn : labels.Nodup) {i j : ℕ} {l : κ} (hi : labels[i]? = some l)
    (hj : labels[j]? = some l) : i = j := by
  obtain ⟨h1, e1⟩ := List.getElem?_eq_some_iff.1 hi
  obtain ⟨h2, e2⟩ := List.getElem?_eq_some_iff.1 hj
  exact (hn.getElem_inj_iff).1 (e1.trans e2.symm)

omit [DecidableEq κ] in
theorem asked_unique {labels : List κ} (hn : labels.Nodup) {s : LabelSel κ} {new old old' : ℕ}
    (h : LabelAsked labels s new old) (h' : LabelAsked labels s new old') : old = old' := by
  cases s with
  | one l => exact getElem?_unique hn h h'
  | many ls =>
    obtain ⟨l, e, h⟩ := h
    obtain ⟨l', e', h'⟩ := h'
    obtain rfl := Option.some.inj (e.symm.trans e')
    exact getElem?_unique hn h h'
  | upto first last =>
    obtain ⟨i, h, e⟩ := h
    obtain ⟨i', h', e'⟩ := h'
    rw [e, e', getElem?_unique hn h h']

/-- The selection by position, dimension by dimension. -/
def toSels (labels : δ → Option (List κ)) (sel : List (δ × LabelSel κ)) : List (δ × Sel) :=
  sel.map fun p => (p.1, toSel ((labels p.1).getD []) p.2)

/-- The positions, dimension by dimension. -/
def toPoss (labels : δ → Option (List κ)) (sel : List (δ × LabelSel κ)) (d : δ) : List ℕ :=
  ((sel.find? fun p => decide (p.1 = d)).map fun p => toPos ((labels d).getD []) p.2).getD []

theorem toPoss_mem {labels : δ → Option (List κ)} {sel : List (δ × LabelSel κ)} (hn : (sel.map Prod.fst).Nodup)
    {p : δ × LabelSel κ} (hp : p ∈ sel) : toPoss labels sel p.1 = toPos ((labels p.1).getD []) p.2 := by
  have : sel.find? (fun q => decide (q.1 = p.1)) = some p := by
    induction sel with
    | nil => cases hp
    | cons q sel ih =>
      rw [List.map_cons, List.nodup_cons] at hn
      rcases List.mem_cons.1 hp with rfl | hp
      · simp
      · have hne : q.1 ≠ p.1 := fun h => hn.1 (h ▸ List.mem_map_of_mem hp)
        rw [List.find?_cons_of_neg (by simpa using hne)]
        exact ih hn.2 hp
  unfold toPoss
  rw [this]
  rfl

variable {obj : DataArray δ α} {moms : List δ} {labels : δ → Option (List κ)} {sel : List (δ × LabelSel κ)}

theorem lookups_ok (h : ∀ p ∈ sel, ∃ ls, labels p.1 = some ls ∧ ls.Nodup ∧ Known ls p.2) :
    sel.mapM (obj.lookupLabel labels) = .ok (toSels labels sel) := by
  refine mapM_ok_of_forall _ _ _ fun p hp => ?_
  obtain ⟨ls, e, hn, hk⟩ := h p hp
  unfold DataArray.lookupLabel
  simp only [e, place_ok hn hk]
  rfl

theorem toSels_good (h : GoodLabels obj moms labels sel) : GoodSel obj (toSels labels sel) (toPoss labels sel) := by
  have hf : (toSels labels sel).map Prod.fst = sel.map Prod.fst := by
    unfold toSels
    rw [List.map_map]
    rfl
  refine ⟨hf ▸ h.distinct, fun q hq => ?_, fun q hq => ?_⟩
  · obtain ⟨p, hp, rfl⟩ := List.mem_map.1 hq
    exact (List.mem_filter.1 (h.present p hp)).1
  · obtain ⟨p, hp, rfl⟩ := List.mem_map.1 hq
    obtain ⟨ls, e, -, hl, hk⟩ := h.labelled p hp
    show Positions (obj.size p.1) (toSel _ _) (toPoss labels sel p.1)
    rw [toPoss_mem h.distinct hp, e, ← hl]
    exact toSel_positions hk

theorem drops_toSels (hn : (sel.map Prod.fst).Nodup) {p : δ × LabelSel κ} (hp : p ∈ sel) :
    drops (toSels labels sel) p.1 = isLabel p.2 := by
  unfold drops toSels
  rw [List.any_map]
  by_cases h : isLabel p.2
  · rw [h, List.any_eq_true]
    exact ⟨p, hp, by simp [isPosition_toSel, h]⟩
  · rw [Bool.not_eq_true] at h
    rw [h, List.any_eq_false]
    intro q hq
    by_cases hqp : q.1 = p.1
    · have : q = p := List.inj_on_of_nodup_map hn hq hp hqp
      subst this
      simp [isPosition_toSel, h]
    · simp [hqp]

theorem drops_toSels_other {d : δ} (hd : d ∉ sel.map Prod.fst) : drops (toSels labels sel) d = false := by
  unfold drops toSels
  rw [List.any_map, List.any_eq_false]
  intro q hq
  have : q.1 ≠ d := fun h => hd (h ▸ List.mem_map_of_mem hq)
  simp [this]

end Cmomy.Labelled
