import Verif.Spec.DatasetConvert
import Verif.Lemmas.Dataset
import Verif.Lemmas.LabelledObject
import Verif.Lemmas.LabelledVals

/-!
# Lemmas for converting between a data set and one array
-/

namespace Cmomy.Labelled

open Spec

variable {ν δ : Type} [DecidableEq ν] [DecidableEq δ] {α : Type}

theorem mem_firstNames {l : List δ} {d : δ} : d ∈ firstNames l ↔ d ∈ l := by
  unfold firstNames
  rw [List.mem_reverse, List.mem_dedup, List.mem_reverse]

theorem nodup_firstNames (l : List δ) : (firstNames l).Nodup := by
  unfold firstNames
  exact List.nodup_reverse.2 (List.nodup_dedup _)

theorem entry_place (x : DataArray δ α) (dim : δ) (k : ℕ) (c : δ → ℕ) :
    entry (x.place dim k) c = entry x (Function.update c dim k) := by
  unfold entry DataArray.place
  refine congrArg x.data (List.map_congr_left fun d hd => ?_)
  by_cases h : d = dim
  · subst h
    simp
  · rw [if_neg h, Function.update_of_ne h]
    have hm : d ∈ x.dims.filter (fun d => decide (d ≠ dim)) := by simp [hd, h]
    have hlt := List.idxOf_lt_length_of_mem hm
    rw [List.getD_eq_getElem?_getD, List.getElem?_map, List.getElem?_eq_getElem hlt, List.getElem_idxOf]
    rfl

/-- Dimensions put in the order in which they occur in `order`. -/
theorem step_order {x : DataArray δ α} (hx : x.dims.Nodup) {order : List δ} (ho : order.Nodup)
    (hs : ∀ d ∈ x.dims, d ∈ order) :
    ∃ y, x.step (fun y => transpose y ((order.filter (fun d => decide (d ∈ x.dims))).map some)) = .ok y ∧
      y.dims = order.filter (fun d => decide (d ∈ x.dims)) ∧ y.size = x.size ∧ ∀ c, entry y c = entry x c := by
  have hp : (order.filter (fun d => decide (d ∈ x.dims))).Perm x.dims := by
    rw [List.perm_ext_iff_of_nodup (ho.filter _) hx]
    intro d
    rw [List.mem_filter, decide_eq_true_eq]
    exact ⟨fun h => h.2, fun h => ⟨hs d h, h⟩⟩
  generalize order.filter (fun d => decide (d ∈ x.dims)) = l at hp
  have hi : (if l.map some = [] then Except.ok x.dims.reverse else infixDims (l.map some) x.dims : Py (List δ))
      = .ok l := by
    cases l with
    | nil =>
      have : x.dims = [] := hp.symm.eq_nil
      simp [this]
    | cons a t =>
      rw [if_neg (by simp)]
      have he : ((a :: t).map some).filter (fun o => o.all (fun d => decide (d ∈ x.dims))) = (a :: t).map some := by
        rw [List.filter_eq_self]
        intro o ho'
        obtain ⟨d, hd, rfl⟩ := List.mem_map.1 ho'
        simpa using hp.mem_iff.1 hd
      unfold infixDims
      simp only [he]
      rw [if_neg (by simp), List.filterMap_map]
      have e2 : List.filterMap (id ∘ some) (a :: t) = a :: t := by
        show List.filterMap some (a :: t) = _
        exact List.filterMap_some
      rw [e2, if_pos]
      rw [Bool.and_eq_true, List.all_eq_true, List.all_eq_true]
      exact ⟨fun d hd => by simpa using hp.mem_iff.1 hd, fun d hd => by
        rw [decide_eq_true_eq]; exact hp.mem_iff.2 hd⟩
  unfold DataArray.step transpose
  simp only [hi]
  rw [if_pos (hp.nodup_iff.2 hx)]
  exact ⟨_, rfl, rfl, rfl, fun c => (values_transpose x.toArr hx hp c).symm⟩

/-- `ds.transpose(..., *moms)`. -/
theorem momentsLast_ok {ds : Dataset ν δ α} {all moms : List δ} (ha : all.Nodup) (hm : moms.Nodup)
    (hma : ∀ d ∈ moms, d ∈ all) (hd : ∀ v ∈ ds, v.2.dims.Nodup) (hs : ∀ v ∈ ds, ∀ d ∈ v.2.dims, d ∈ all) :
    ∃ out, ds.momentsLast all moms = .ok out ∧
      EachVariable (fun _ x y => y.dims = (all.filter (fun d => decide (d ∉ moms)) ++ moms).filter
          (fun d => decide (d ∈ x.dims)) ∧ y.dims.Perm x.dims ∧ y.size = x.size ∧ ∀ c, entry y c = entry x c)
        ds out := by
  have ho : (all.filter (fun d => decide (d ∉ moms)) ++ moms).Nodup := by
    rw [List.nodup_append]
    refine ⟨ha.filter _, hm, fun a h1 b h2 e => ?_⟩
    subst e
    simp only [List.mem_filter, decide_eq_true_eq] at h1
    exact h1.2 h2
  have hin : ∀ v ∈ ds, ∀ d ∈ v.2.dims, d ∈ all.filter (fun d => decide (d ∉ moms)) ++ moms := by
    intro v hv d h
    by_cases h' : d ∈ moms
    · exact List.mem_append_right _ h'
    · exact List.mem_append_left _ (by simp [h', hs v hv d h])
  unfold Dataset.momentsLast
  rw [if_neg (by push Not; exact hma)]
  refine mapVars_ok fun v hv => ?_
  obtain ⟨y, e1, e2, e3, e4⟩ := step_order (hd v hv) ho (hin v hv)
  refine ⟨y, e1, e2, ?_, e3, e4⟩
  rw [e2, List.perm_ext_iff_of_nodup (ho.filter _) (hd v hv)]
  intro d
  rw [List.mem_filter, decide_eq_true_eq]
  exact ⟨fun h => h.2, fun h => ⟨hin v hv d h, h⟩⟩

theorem order_last {all moms dims : List δ} (h : ∀ d ∈ moms, d ∈ dims) :
    ∃ front, (all.filter (fun d => decide (d ∉ moms)) ++ moms).filter (fun d => decide (d ∈ dims)) = front ++ moms := by
  refine ⟨(all.filter (fun d => decide (d ∉ moms))).filter (fun d => decide (d ∈ dims)), ?_⟩
  rw [List.filter_append]
  congr 1
  rw [List.filter_eq_self]
  exact fun d hd => by simpa using h d hd

omit [DecidableEq ν] [DecidableEq δ] in
theorem eachVariable_get {β : Type} {R : ν → DataArray δ α → DataArray δ β → Prop} {ds : List (ν × DataArray δ α)}
    {out : List (ν × DataArray δ β)} (h : EachVariable R ds out) {k : ℕ} {w : ν × DataArray δ β}
    (hk : out[k]? = some w) : ∃ v, ds[k]? = some v ∧ R v.1 v.2 w.2 := by
  induction h generalizing k with
  | nil => simp at hk
  | @cons v w' ds out h _ ih =>
    cases k with
    | zero =>
      simp only [List.getElem?_cons_zero, Option.some.injEq] at hk
      subst hk
      exact ⟨v, rfl, h.2⟩
    | succ k => exact ih (by simpa using hk)

end Cmomy.Labelled
