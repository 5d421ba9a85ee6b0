import Verif.Spec.Rearrange
import Verif.Props.LabelledCollect
import Verif.Props.Unstack

/-!
# Rearranging before or after: lemmas
-/

namespace Cmomy

open Labelled Spec

variable {δ : Type} [DecidableEq δ] {K M : Type} {moms : List δ}

/-- The records met in a rearranged object are those met in the object, where the rearrangement leaves the dimensions `ds`
alone. -/
theorem records_rearranged {core : Nd.Core K M} {y obj : DataArray δ K} {nd : ℕ} {f : (δ → ℕ) → δ → ℕ}
    (h : CellsNamed y obj moms nd f) {ds : List δ} (hn : ds.Nodup)
    (hs : ∀ d ∈ ds, y.size d = obj.size d) {c : δ → ℕ} (hc : ∀ d ∈ valDims y moms, d ∉ ds → c d < y.size d)
    (hf : ∀ c', (∀ d ∉ ds, c' d = c d) → InLabelled y moms c' → ∀ e ∈ obj.dims, e ∉ moms →
      f c' e = if e ∈ ds then c' e else f c e) :
    recordsNamed core y moms ds c = recordsNamed core obj moms ds (f c) := by
  have hm : ds.map y.size = ds.map obj.size := List.map_congr_left hs
  unfold recordsNamed
  refine List.ext_getElem (by simp [length_allCoords, hm]) fun j h1 h2 => ?_
  have hj : j < (ds.map y.size).prod := by simpa [length_allCoords] using h1
  have hj' : j < (ds.map obj.size).prod := hm ▸ hj
  have e1 := allCoords_getElem? y.size hn c hj
  have e2 := allCoords_getElem? obj.size hn (f c) hj'
  obtain ⟨l1, e1⟩ := List.getElem?_eq_some_iff.1 e1
  obtain ⟨l2, e2⟩ := List.getElem?_eq_some_iff.1 e2
  obtain ⟨b1, b2⟩ := allCoords_bounds (List.getElem_mem l1)
  rw [List.getElem_map, List.getElem_map]
  have hin : InLabelled y moms ((allCoords y.size ds c)[j]) := fun d hd => by
    by_cases hds : d ∈ ds
    · exact b1 d hds
    · rw [b2 d hds]
      exact hc d hd hds
  unfold recordNamed
  refine congrArg core.recd (funext fun ms => ?_)
  rw [h.cell _ hin ms]
  refine entry_congr _ fun e he => ?_
  unfold withNames
  split_ifs with hem
  · rfl
  · rw [hf _ b2 hin e he hem, e1, e2]
    simp only [hm]
    split_ifs <;> rfl

theorem mem_reduced {dims ds moms : List δ} (keepdims axesToEnd : Bool) {d : δ} (hd : d ∈ dims) (hds : d ∉ ds) :
    d ∈ dimsReduced dims ds moms keepdims axesToEnd := by
  by_cases hm : d ∈ moms <;> cases keepdims <;> cases axesToEnd <;> simp [dimsReduced, hd, hds, hm]

theorem of_mem_reduced {dims ds moms : List δ} (hds : ∀ d ∈ ds, d ∈ dims) (hm : ∀ d ∈ moms, d ∈ dims)
    (keepdims axesToEnd : Bool) {d : δ} (hd : d ∈ dimsReduced dims ds moms keepdims axesToEnd) : d ∈ dims := by
  cases keepdims <;> cases axesToEnd <;> simp [dimsReduced] at hd
  · exact hd.1
  · rcases hd with h | h
    exacts [h.1, hm d h]
  · exact hd
  · rcases hd with h | h | h
    exacts [h.1, hds d h, hm d h]

theorem reduced_nodup {α : Type} {x : DataArray δ α} {ds : List δ} (g : GoodReduce x moms ds) (keepdims axesToEnd : Bool) :
    (dimsReduced x.dims ds moms keepdims axesToEnd).Nodup := by
  have hd := g.distinct
  cases keepdims <;> cases axesToEnd <;> simp only [dimsReduced]
  · exact hd.filter _
  · refine List.nodup_append.2 ⟨hd.filter _, g.momDistinct, fun a ha b hb hab => ?_⟩
    have := (List.mem_filter.1 ha).2
    simp [hab, hb] at this
  · exact hd
  · refine List.nodup_append.2 ⟨hd.filter _, List.nodup_append.2 ⟨g.dsDistinct, g.momDistinct, fun a ha b hb hab =>
      g.notMom a ha (hab ▸ hb)⟩, fun a ha b hb hab => ?_⟩
    have := (List.mem_filter.1 ha).2
    rw [hab] at this
    simp only [decide_eq_true_eq] at this
    exact this hb

theorem reduced_filter {dims ds moms : List δ} {p : δ → Bool} (hds : ∀ d ∈ ds, p d = true) (hm : ∀ d ∈ moms, p d = true)
    (keepdims axesToEnd : Bool) :
    dimsReduced (dims.filter p) ds moms keepdims axesToEnd = (dimsReduced dims ds moms keepdims axesToEnd).filter p := by
  have h1 : ds.filter p = ds := List.filter_eq_self.2 hds
  have h2 : moms.filter p = moms := List.filter_eq_self.2 hm
  cases keepdims <;> cases axesToEnd <;> simp [dimsReduced, List.filter_append, List.filter_filter, h1, h2, Bool.and_comm]

end Cmomy
