import Verif.Lemmas.Unstack
import Verif.Props.LabelledObject

/-!
# C82: unstacking

Where the records of a stacked dimension are found after `unstack`, and that `unstack` undoes `stack`.
-/

namespace Cmomy

open Labelled Spec ExDim

variable {δ α : Type} [DecidableEq δ] {obj : DataArray δ α} {moms : List δ} {nd : ℕ}

/-- **C82** `unstack`: the levels become dimensions, behind the other dimensions and before the moment dimensions. The
record at a position is found at the numbers of its labels; where no position has these labels, all entries are the fill
value. -/
theorem C82_unstack (g : LabelledObject obj moms nd) (h2 : ∀ d ∈ moms, 2 ≤ obj.size d) {dim : δ}
    (hd : dim ∈ valDims obj moms) {ix : MultiIndex δ} (hf : ix.Fits (obj.size dim)) (hnew : ∀ d ∈ ix.names, d ∉ obj.dims)
    (hn : ix.codes.Nodup) (fill : α) :
    ∃ out, unstackX moms obj dim ix fill = .ok out ∧ LabelledObject out moms nd ∧
      out.dims = (valDims obj moms).filter (fun d => decide (d ≠ dim)) ++ ix.names ++ moms ∧
      ix.names.map out.size = ix.sizes ∧ (∀ d ∈ obj.dims, out.size d = obj.size d) ∧
      (∀ (j : ℕ) (t : List ℕ), ix.codes[j]? = some t → ∀ c ms,
        entry out (withNames moms ms (withNames ix.names t c)) = entry obj (withNames moms ms (Function.update c dim j))) ∧
      ∀ c, ix.names.map c ∉ ix.codes → ∀ ms, entry out (withNames moms ms c) = fill := by
  obtain ⟨hd1, hd2⟩ := List.mem_filter.1 hd
  have hdm : dim ∉ moms := by simpa using hd2
  have hnm : ∀ d ∈ ix.names, d ∉ moms := fun d h h' => hnew d h (g.momPresent d h')
  obtain ⟨y, e, e1, e2, e3, e4⟩ := unstack_ok fill hd1 hf hnew hn
  have hymom : ∀ d ∈ moms, d ∈ y.dims := fun d h => by
    rw [e1, List.mem_append]
    exact .inl (List.mem_filter.2 ⟨g.momPresent d h, by simpa using fun h' : d = dim => hdm (h' ▸ h)⟩)
  have hynd : y.dims.Nodup := by
    rw [e1, List.nodup_append]
    refine ⟨g.distinct.filter _, hf.1, fun a ha b hb hab => ?_⟩
    exact hnew b hb (hab ▸ (List.mem_filter.1 ha).1)
  have hperm := middle_perm (dims := y.dims) (A := []) (B := moms) hynd (by simpa using hymom)
    (by simpa using g.momDistinct)
  obtain ⟨z, k, k1, k2, k3⟩ := transposeStrict_ok (x := y) hynd
    (supplied := none :: moms.map some) (by simp) (by simpa using hymom)
    (infix_middle (A := []) hynd (by simpa using hymom)) hperm
  have hz : LabelledObject z moms nd := ⟨k1 ▸ hperm.nodup_iff.2 hynd, g.momDistinct,
    fun d h => k1 ▸ hperm.mem_iff.2 (hymom d h), g.momCount⟩
  have hidx : ∀ c : δ → ℕ, ∀ ms, ix.names.map (withNames moms ms c) = ix.names.map c := fun c ms =>
    List.map_congr_left fun d h => if_neg (hnm d h)
  refine ⟨z, ?_, hz, ?_, ?_, ?_, ?_, ?_⟩
  · unfold unstackX
    rw [e]
    show reorderX moms obj y = _
    unfold reorderX
    rw [k]
    exact newLikeX_ok hz.momPresent (fun d h => by rw [k2, e3 d (g.momPresent d h)]) h2
  · rw [k1]
    unfold middle valDims
    rw [List.nil_append, e1, List.filter_append, List.filter_filter, List.filter_filter,
      (List.filter_eq_self (l := ix.names)).2 (fun d h => by simpa using hnm d h)]
    simp only [List.nil_append]
    congr 2
    refine List.filter_congr fun d _ => ?_
    rw [Bool.and_comm]
  · rw [k2]
    refine List.ext_getElem (by rw [List.length_map, hf.2.1]) fun i h1 h3 => ?_
    rw [List.getElem_map, e2 _ (List.getElem_mem _), hf.1.idxOf_getElem, List.getD_eq_getElem _ _ h3]
  · intro d h
    rw [k2, e3 d h]
  · intro j t hj c ms
    have ht := List.mem_of_getElem? hj
    obtain ⟨hlen, -⟩ := hf.2.2.2.1 t ht
    have et : ix.names.map (withNames moms ms (withNames ix.names t c)) = t := by
      rw [hidx]
      refine List.ext_getElem (by rw [List.length_map, hlen]) fun i h1 h3 => ?_
      rw [List.getElem_map]
      unfold withNames
      rw [if_pos (List.getElem_mem _), hf.1.idxOf_getElem, List.getD_eq_getElem _ _ h3]
    obtain ⟨hjl, ej⟩ := List.getElem?_eq_some_iff.1 hj
    have ei : ix.codes.idxOf t = j := by rw [← ej, hn.idxOf_getElem]
    rw [k3, e4, et, if_pos ht, ei]
    refine entry_congr _ fun d h => ?_
    by_cases hdd : d = dim
    · subst hdd
      rw [Function.update_self]
      unfold withNames
      rw [if_neg hdm, Function.update_self]
    · rw [Function.update_of_ne hdd]
      unfold withNames
      split_ifs with h1 h2
      · rfl
      · exact absurd h (hnew d h2)
      · rw [Function.update_of_ne hdd]
  · intro c hc ms
    rw [k3, e4, hidx, if_neg hc]

/-- **C82** `unstack` undoes `stack`: all records are found where they were, whatever the fill value is. The dimensions that
were stacked are now the last ones before the moment dimensions. -/
theorem C82_stack_unstack (g : LabelledObject obj moms nd) (h2 : ∀ d ∈ moms, 2 ≤ obj.size d) {ds : List δ} {new : δ}
    (hne : ds ≠ []) (hn : ds.Nodup) (hp : ∀ d ∈ ds, d ∈ valDims obj moms) (hpos : ∀ d ∈ ds, 0 < obj.size d)
    (hnew : new ∉ obj.dims) (fill : α) :
    ∃ y out, stackX moms obj new ds = .ok y ∧
      unstackX moms y new (.product ds (ds.map obj.size)) fill = .ok out ∧
      out.dims = (valDims obj moms).filter (fun d => decide (d ∉ ds)) ++ ds ++ moms ∧
      (∀ d ∈ obj.dims, out.size d = obj.size d) ∧ CellsNamed out obj moms nd id := by
  obtain ⟨y, e, e1, e2, e3, e4⟩ := C65_stack g h2 hne hn hp hnew
  have hnm : new ∉ moms := fun h => hnew (g.momPresent _ h)
  have hds : ∀ d ∈ ds, d ∈ obj.dims ∧ d ∉ moms := fun d hd => by simpa [valDims] using hp d hd
  have hdn : ∀ d ∈ ds, d ≠ new := fun d hd h => hnew (h ▸ (hds d hd).1)
  have hvy : valDims y moms = (valDims obj moms).filter (fun d => decide (d ∉ ds)) ++ [new] := by
    unfold valDims
    rw [e1, List.filter_append, List.filter_cons_of_pos (by simpa using hnm)]
    congr 1
    · refine List.filter_eq_self.2 fun d h => ?_
      exact (List.mem_filter.1 (List.mem_filter.1 h).1).2
    · rw [List.filter_eq_nil_iff.2 (by simp)]
  have hfit : (MultiIndex.product ds (ds.map obj.size)).Fits (y.size new) := by
    rw [e2]
    exact product_fits hn (by simp) (by simpa using hpos)
  obtain ⟨z, k, kz, k1, k2, k3, k4, -⟩ := C82_unstack e4.object (fun d h => by rw [e4.momSize d h]; exact h2 d h)
    (dim := new) (by rw [hvy]; simp) hfit (by
      intro d hd h
      rw [e1, List.mem_append, List.mem_filter, List.mem_cons] at h
      rcases h with h | h | h
      · simp [show d ∈ ds from hd] at h
      · exact hdn d hd h
      · exact (hds d hd).2 h) (product_nodup _ _) fill
  have hrest : ∀ d ∈ obj.dims, d ∉ ds → d ∈ y.dims := fun d hd hnd => by
    rw [e1, List.mem_append, List.mem_cons]
    by_cases hm : d ∈ moms
    · exact .inr (.inr hm)
    · exact .inl (List.mem_filter.2 ⟨List.mem_filter.2 ⟨hd, by simpa using hm⟩, by simpa using hnd⟩)
  have hsize : ∀ d ∈ obj.dims, z.size d = obj.size d := fun d hd => by
    by_cases h : d ∈ ds
    · have k2 : ds.map z.size = ds.map obj.size := k2
      exact List.map_inj_left.1 k2 d h
    · rw [k3 d (hrest d hd h), e3 d hd]
  have hdims : z.dims = (valDims obj moms).filter (fun d => decide (d ∉ ds)) ++ ds ++ moms := by
    rw [k1, hvy, List.filter_append, List.filter_eq_self.2 (fun d h => by
      have := (List.mem_filter.1 (List.mem_filter.1 h).1).1
      simpa using fun h' : d = new => hnew (h' ▸ this))]
    simp [MultiIndex.product]
  have hmemz : ∀ d ∈ valDims obj moms, d ∈ valDims z moms := fun d hd => by
    obtain ⟨a, b⟩ := List.mem_filter.1 hd
    refine List.mem_filter.2 ⟨?_, b⟩
    rw [hdims, List.mem_append, List.mem_append, List.mem_filter]
    by_cases h : d ∈ ds
    · exact .inl (.inr h)
    · exact .inl (.inl ⟨hd, by simpa using h⟩)
  refine ⟨y, z, e, k, hdims, hsize, kz, fun d h => hsize d (g.momPresent d h), fun c hc d hd => ?_, fun c hc ms => ?_⟩
  · rw [← hsize d (List.mem_filter.1 hd).1]
    exact hc d (hmemz d hd)
  · have hcd : ∀ d ∈ ds, c d < obj.size d := fun d hd => by
      rw [← hsize d (hds d hd).1]
      exact hc d (hmemz d (hp d hd))
    obtain ⟨j, hj, ej⟩ := exists_unravel (sizes := ds.map obj.size) (t := ds.map c) (by simp) (by
      intro i hi
      have hi' : i < ds.length := by simpa using hi
      rw [List.getD_eq_getElem _ _ (by simpa using hi'), List.getD_eq_getElem _ _ hi, List.getElem_map, List.getElem_map]
      exact hcd _ (List.getElem_mem hi'))
    have hcode : (MultiIndex.product ds (ds.map obj.size)).codes[j]? = some (ds.map c) := by
      unfold MultiIndex.product
      rw [List.getElem?_map, List.getElem?_range hj]
      simp [ej]
    have hself : withNames ds (ds.map c) c = c := by
      funext d
      unfold withNames
      split_ifs with h
      · have hi := List.idxOf_lt_length_of_mem h
        rw [List.getD_eq_getElem _ _ (by simpa using hi), List.getElem_map, List.getElem_idxOf]
      · rfl
    have k5 := k4 j _ hcode c ms
    change entry z (withNames moms ms (withNames ds (ds.map c) c)) = _ at k5
    rw [hself] at k5
    rw [k5]
    have hin : InLabelled y moms (Function.update c new j) := by
      intro d hd
      rw [hvy, List.mem_append, List.mem_singleton] at hd
      rcases hd with hd | rfl
      · have hv := (List.mem_filter.1 hd).1
        have hdo := (List.mem_filter.1 hv).1
        rw [Function.update_of_ne (fun h : d = new => hnew (h ▸ hdo)), e3 d hdo, ← hsize d hdo]
        exact hc d (hmemz d hv)
      · rw [Function.update_self, e2]
        exact hj
    rw [e4.cell _ hin ms]
    refine entry_congr _ fun d hd => ?_
    have hdne : d ≠ new := fun h => hnew (h ▸ hd)
    unfold withNames
    split_ifs with hdm
    · rfl
    · rw [unstacked_apply hn (by rw [Function.update_self]; exact hj), Function.update_self, Function.update_of_ne hdne, ej]
      split_ifs with h
      · have hi := List.idxOf_lt_length_of_mem h
        rw [List.getD_eq_getElem _ _ (by simpa using hi), List.getElem_map, List.getElem_idxOf]
        rfl
      · rfl

/-- **C82** Labels that appear twice are refused. -/
theorem C82_duplicates {dim : δ} (hd : dim ∈ obj.dims) {ix : MultiIndex δ} (hf : ix.Fits (obj.size dim))
    (hnew : ∀ d ∈ ix.names, d ∉ obj.dims) (hn : ¬ ix.codes.Nodup) (fill : α) :
    unstackX moms obj dim ix fill = .error .valueError := by
  unfold unstackX DataArray.unstack
  rw [if_neg (by simpa using hd), if_neg (by
    rintro (h | ⟨d, h1, h2⟩)
    · exact h hf
    · exact hnew d h1 h2), if_pos (by simpa using hn)]
  rfl

/-- **C82** A dimension that is not there is refused. -/
theorem C82_missing {dim : δ} (hd : dim ∉ obj.dims) (ix : MultiIndex δ) (fill : α) :
    unstackX moms obj dim ix fill = .error .valueError := by
  unfold unstackX DataArray.unstack
  rw [if_pos (by simpa using hd)]
  rfl

/-! ### Concrete cases -/

/-- The object stacked, with an index of its dimensions `p` and `t`, and taken apart again. -/
example : dimEntries ((stackX [m] exNamedObj b [p, t]).bind fun y => unstackX [m] y b (.product [p, t] [2, 3]) (-1))
    [[(p, 1), (t, 2), (m, 2)], [(p, 0), (t, 1), (m, 0)]] = some ([p, t, m], [2, 3, 3], [212, 100]) := by decide +kernel
example := C82_stack_unstack exNamedObj_good exNamedObj_sizes (ds := [p, t]) (new := b) (by decide) (by decide)
  (by decide) (by decide) (by decide) (-1)

/-- Three positions along `t` with labels `(0, 1)`, `(1, 0)` and `(1, 1)`: nothing is known about `(0, 0)`. -/
def exIndex : MultiIndex ExDim := ⟨[q, b], [2, 2], [[0, 1], [1, 0], [1, 1]]⟩

example : dimEntries (unstackX [m] exNamedObj t exIndex (-1))
    [[(q, 1), (b, 0), (p, 1), (m, 2)], [(q, 0), (b, 0), (p, 1), (m, 2)]]
    = some ([p, q, b, m], [2, 2, 2, 3], [112, -1]) := by decide +kernel
example := C82_unstack exNamedObj_good exNamedObj_sizes (dim := t) (by decide) (ix := exIndex) (by decide) (by decide)
  (by decide) (-1)
example := C82_duplicates (moms := [m]) (obj := exNamedObj) (dim := t) (by decide)
  (ix := ⟨[b], [2], [[0], [1], [0]]⟩) (by decide) (by decide) (by decide) (-1)
example := C82_missing (moms := [m]) (obj := exNamedObj) (dim := b) (by decide) exIndex (-1)

end Cmomy
