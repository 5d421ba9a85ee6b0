import Verif.Spec.LabelledStats
import Verif.Lemmas.LabelledPush
import Verif.Lemmas.LabelledRefuse
import Verif.Lemmas.ObjectStats
import Verif.Props.Select

/-!
# Lemmas about the statistics of labelled objects
-/

set_option linter.unusedSectionVars false

namespace Cmomy.Labelled

open Spec Select

variable {δ : Type} [DecidableEq δ] {α : Type}

theorem pos_eq_atMom (vd moms : List δ) (c : δ → ℕ) :
    pos (vd ++ moms) c = atMom vd.length (coordsAlong vd c) (moms.map c) := by
  funext p
  unfold pos atMom coordsAlong
  by_cases h : p < vd.length
  · rw [if_pos h, List.getElem?_append_left h]
  · rw [if_neg h, List.getElem?_append_right (by omega), List.getD_eq_getElem?_getD,
      List.getElem?_map]

theorem withNames_map {names : List δ} (hn : names.Nodup) {m : List ℕ} (hm : m.length = names.length)
    (c : δ → ℕ) : names.map (withNames names m c) = m := by
  refine List.ext_getElem (by simp [hm]) fun p h1 h2 => ?_
  have hp : p < names.length := by simpa using h1
  rw [List.getElem_map]
  unfold withNames
  rw [if_pos (List.getElem_mem hp), hn.idxOf_getElem, List.getD_eq_getElem _ _ h2]

theorem withNames_coords {vd names : List δ} (hd : ∀ d ∈ vd, d ∉ names) (m : List ℕ) (c : δ → ℕ) :
    coordsAlong vd (withNames names m c) = coordsAlong vd c := by
  funext p
  unfold coordsAlong
  cases h : vd[p]? with
  | none => rfl
  | some d =>
    have := hd d (List.mem_of_getElem? h)
    simp [withNames, this]

theorem inBounds_coords {vd : List δ} {size : δ → ℕ} {c : δ → ℕ} (h : ∀ d ∈ vd, c d < size d) :
    InBounds (vd.map size) (coordsAlong vd c) := by
  intro p hp
  have hp' : p < vd.length := by simpa using hp
  rw [List.getD_eq_getElem _ _ hp, List.getElem_map]
  unfold coordsAlong
  rw [List.getElem?_eq_getElem hp']
  exact h _ (List.getElem_mem hp')

theorem within_map {l : List δ} {size c : δ → ℕ} (h : ∀ d ∈ l, c d < size d) :
    Within (l.map size) (l.map c) := by
  unfold Within
  rw [List.forall₂_map_left_iff, List.forall₂_map_right_iff, List.forall₂_same]
  exact h

/-- How an object is arranged. -/
theorem momentObject_arranged {obj : DataArray δ α} {moms : List δ} (g : MomentObject obj moms) :
    ∃ out, compatData obj (valDims obj moms) moms = .ok out ∧
      IsObject out ((valDims obj moms).map obj.size) (moms.map obj.size) ∧
      ∀ c ms, ms.length = moms.length →
        out.get (atMom (valDims obj moms).length (coordsAlong (valDims obj moms) c) ms)
          = entry obj (withNames moms ms c) := by
  have hn := valDims_nodup g.object
  have hperm := valDims_perm g.object
  obtain ⟨out, h1, h2, h3⟩ := compatData_all obj g.object.distinct hperm
  have hdis : ∀ d ∈ valDims obj moms, d ∉ moms := fun d h1 h2 => List.disjoint_of_nodup_append hn h1 h2
  refine ⟨out, h1, ⟨?_, by rw [h2, List.map_append], by simpa using g.count, ?_⟩, fun c ms hms => ?_⟩
  · intro i j hij
    rw [h3, h3]
    refine entry_congr obj fun d hd => hij _ ?_
    rw [h2, List.length_map]
    exact List.idxOf_lt_length_iff.2 (hperm.mem_iff.2 hd)
  · intro m hm
    obtain ⟨d, hd, rfl⟩ := List.mem_map.1 hm
    exact g.orders d hd
  · have e := pos_eq_atMom (valDims obj moms) moms (withNames moms ms c)
    rw [withNames_map g.object.momDistinct hms, withNames_coords hdis] at e
    rw [← e, h3]
    exact entry_congr obj fun d hd => pos_idxOf (hperm.mem_iff.2 hd)

/-- How a labelled value is arranged. -/
theorem value_arranged (y : DataArray δ α) {loop cs : List δ} (hl : (loop ++ cs).Nodup)
    (hy : y.dims.Nodup) (hc : ∀ d ∈ cs, d ∈ y.dims) (hs : ∀ d ∈ y.dims, d ∈ loop ++ cs)
    {size : δ → ℕ} (hz : ∀ d ∈ y.dims, d ∈ loop → y.size d = size d) :
    ∃ a, compatData y loop cs = .ok a ∧ a.Proper ∧
      Broadcasts a.shape (loop.map size ++ cs.map y.size) ∧
      ∀ c : δ → ℕ, (∀ d ∈ loop, c d < size d) → ∀ m, Within (cs.map y.size) m →
        stretch a (loop.length + m.length) (atMom loop.length (coordsAlong loop c) m)
          = entry y (withNames cs m c) := by
  obtain ⟨a, h1, h2, h3⟩ := compatData_ok y hy hl hc hs
  obtain ⟨front, back, e1, e2, e3⟩ := dropWhile_core (y := y) (loop := loop) hc
  rw [e3] at h2 h3
  have hT : (back ++ cs).Nodup := by
    rw [e1, List.append_assoc] at hl
    exact hl.of_append_right
  have hmem : ∀ d ∈ y.dims, d ∈ back ++ cs := by
    intro d hd
    have := hs d hd
    rw [e1, List.append_assoc] at this
    exact (List.mem_append.1 this).resolve_left (fun h => e2 d h hd)
  have hlen : a.shape.length = back.length + cs.length := by rw [h2]; simp
  have hll : loop.length = front.length + back.length := by rw [e1]; simp
  refine ⟨a, h1, ?_, ?_, fun c hcb m hm => ?_⟩
  · intro i j hij
    rw [h3, h3]
    refine entry_congr y fun d hd => hij _ ?_
    rw [h2, List.length_map]
    exact List.idxOf_lt_length_iff.2 (hmem d hd)
  · intro k v hv
    rw [h2] at hv
    obtain ⟨d, hd, rfl⟩ : ∃ d, (back ++ cs).reverse[k]? = some d ∧
        v = if d ∈ y.dims then y.size d else 1 := by
      rw [← List.map_reverse, List.getElem?_map] at hv
      cases hk : (back ++ cs).reverse[k]? with
      | none => rw [hk] at hv; simp at hv
      | some d => rw [hk] at hv; exact ⟨d, rfl, by simpa using hv.symm⟩
    by_cases hdy : d ∈ y.dims
    · right
      rw [if_pos hdy, e1, List.map_append, List.append_assoc, List.reverse_append,
        List.getElem?_append_left]
      · have e4 : (back.map size ++ cs.map y.size)
            = (back ++ cs).map (fun d => if d ∈ cs then y.size d else size d) := by
          rw [List.map_append]
          congr 1
          · refine List.map_congr_left fun e he => ?_
            rw [if_neg (fun h => List.disjoint_of_nodup_append hT he h)]
          · exact List.map_congr_left fun e he => by rw [if_pos he]
        rw [e4, ← List.map_reverse, List.getElem?_map, hd, Option.map_some]
        by_cases hcs : d ∈ cs
        · rw [if_pos hcs]
        · rw [if_neg hcs, hz d hdy]
          have : d ∈ back := (List.mem_append.1 (hmem d hdy)).resolve_right hcs
          rw [e1]; exact List.mem_append_right _ this
      · have := (List.getElem?_eq_some_iff.1 hd).1
        simpa using this
    · left; rw [if_neg hdy]
  · have hml : m.length = cs.length := by simpa using List.Forall₂.length_eq hm
    unfold stretch
    rw [h3]
    refine entry_congr y fun d hd => ?_
    have hi := List.idxOf_lt_length_iff.2 (hmem d hd)
    have hsz : a.shape.getD ((back ++ cs).idxOf d) 0 = y.size d := by
      rw [h2, List.getD_eq_getElem _ _ (by simpa using hi), List.getElem_map, List.getElem_idxOf,
        if_pos hd]
    have hcd : withNames cs m c d < y.size d := by
      unfold withNames
      by_cases hcs : d ∈ cs
      · rw [if_pos hcs]
        have hi' := List.idxOf_lt_length_iff.2 hcs
        have := List.Forall₂.get hm (i := cs.idxOf d) (by omega) (by simpa using hi')
        simp only [List.get_eq_getElem, List.getElem_map, List.getElem_idxOf] at this
        rwa [List.getD_eq_getElem _ _ (by omega)]
      · rw [if_neg hcs]
        have hdl := (List.mem_append.1 (hs d hd)).resolve_right hcs
        rw [hz d hd hdl]
        exact hcb d hdl
    show (if a.shape.getD ((back ++ cs).idxOf d) 0 = 1 then 0 else _) = _
    rw [hsz]
    by_cases h1' : y.size d = 1
    · rw [if_pos h1']; omega
    · rw [if_neg h1']
      have hp : (back ++ cs).idxOf d + (loop.length + m.length) - a.shape.length
          = front.length + (back ++ cs).idxOf d := by omega
      rw [hp]
      unfold atMom withNames
      by_cases hcs : d ∈ cs
      · have hb : d ∉ back := fun h => List.disjoint_of_nodup_append hT h hcs
        rw [List.idxOf_append_of_notMem hb, if_neg (by omega), if_pos hcs]
        congr 1
        omega
      · have hb := (List.mem_append.1 (hmem d hd)).resolve_right hcs
        have hib := List.idxOf_lt_length_iff.2 hb
        rw [List.idxOf_append_of_mem hb, if_pos (by omega), if_neg hcs]
        unfold coordsAlong
        rw [e1, List.getElem?_append_right (by omega), Nat.add_sub_cancel_left,
          List.getElem?_eq_getElem hib, List.getElem_idxOf]
        rfl

/-- The result of `apply_ufunc`, looked at by name. -/
theorem ofNd_names {loop names : List δ} (hn : (loop ++ names).Nodup) {b : Nd.Arr α} (hb : b.Proper)
    (hs : b.shape.length = loop.length + names.length) {m : List ℕ} (hm : m.length = names.length)
    (c : δ → ℕ) :
    entry (DataArray.ofNd (loop ++ names) b) (withNames names m c)
      = b.get (atMom loop.length (coordsAlong loop c) m) := by
  rw [ofNd_entry, pos_eq_atMom, withNames_map hn.of_append_right hm, withNames_coords]
  exact fun d h1 h2 => List.disjoint_of_nodup_append hn h1 h2

end Cmomy.Labelled

namespace Cmomy.Labelled

open Spec Select

variable {δ : Type} [DecidableEq δ] {α : Type}

theorem selection_within {sizes : List ℕ} (hc : sizes.length = 1 ∨ sizes.length = 2)
    (hp : ∀ s ∈ sizes, 0 < s) {name : String} {sq : Bool} (hs : Selectable name sq sizes)
    {p : List ℕ × List ℕ} (h : p ∈ selection name sq sizes) : Within (selShape name sq sizes) p.1 := by
  obtain ⟨h1, -, -⟩ := subFor_spec name sq hc hp
  obtain ⟨sub, -, e, ok⟩ := h1 hs
  rw [← e]
  exact ((ok.locate p.1 p.2).1 h).1

/-- Names of one variable. -/
theorem known_cases {nd : ℕ} {name : String} (h : name ∈ knownNames nd) :
    name = "all" ∨ name = "weight" ∨ name = "ave" ∨ name = "var" ∨ name = "cov" ∨ name = "xave" ∨
      name = "xvar" ∨ (nd ≠ 1 ∧ (name = "yave" ∨ name = "yvar" ∨ name = "xmom_0" ∨ name = "xmom_1" ∨
        name = "ymom_0" ∨ name = "ymom_1")) := by
  unfold knownNames at h
  by_cases hd : nd = 1
  · simp only [hd, if_true, List.append_nil, List.mem_cons, List.not_mem_nil, or_false] at h
    tauto
  · simp only [hd, if_false, List.mem_append, List.mem_cons, List.not_mem_nil, or_false] at h
    tauto

theorem selectCore_eq {moms : List δ} {name : String} (hk : name ∈ knownNames moms.length)
    (ha : name ≠ "all") (sq : Bool) (combined : δ) :
    selectCore moms name sq combined = selNames moms name sq (some combined) := by
  unfold selectCore selNames perVariable
  rcases known_cases hk with rfl | rfl | rfl | rfl | rfl | rfl | rfl | ⟨hn, rfl | rfl | rfl | rfl | rfl | rfl⟩
  · exact absurd rfl ha
  · rfl
  · by_cases h : moms.length = 1 <;> cases sq <;> simp [h, startsWith]
  · by_cases h : moms.length = 1 <;> cases sq <;> simp [h, startsWith]
  all_goals rfl

theorem assignCore_named {moms : List δ} {name : String} (hk : name ∈ knownNames moms.length)
    (sq : Bool) (combined : Option δ) (y : DataArray δ α) :
    assignCore moms name sq combined (.named y) = selNames moms name sq combined := by
  unfold assignCore selNames perVariable
  rcases known_cases hk with rfl | rfl | rfl | rfl | rfl | rfl | rfl | ⟨hn, rfl | rfl | rfl | rfl | rfl | rfl⟩
  · rfl
  · rfl
  · by_cases h : moms.length = 1 <;> cases sq <;> cases combined <;> simp [h, startsWith]
  · by_cases h : moms.length = 1 <;> cases sq <;> cases combined <;> simp [h, startsWith]
  all_goals rfl

/-- The names of a selection are moment dimensions, or the combined dimension alone. -/
theorem selNames_sub (moms : List δ) (name : String) (sq : Bool) (combined : Option δ) :
    (∀ d ∈ selNames moms name sq combined, d ∈ moms) ∨
      selNames moms name sq combined = combined.toList := by
  unfold selNames
  split_ifs
  · exact .inl fun d h => h
  · exact .inl (by simp)
  · exact .inr rfl
  · exact .inl fun d h => List.mem_of_mem_drop h
  · exact .inl fun d h => List.mem_of_mem_take h
  · exact .inl (by simp)

theorem selNames_nodup {moms : List δ} (hm : moms.Nodup) (name : String) (sq : Bool)
    (combined : Option δ) : (selNames moms name sq combined).Nodup := by
  unfold selNames
  split_ifs
  · exact hm
  · simp
  · cases combined <;> simp
  · exact hm.sublist (List.drop_sublist _ _)
  · exact hm.sublist (List.take_sublist _ _)
  · simp

/-- The sizes of the dimensions of a selection. -/
def selSize (obj : DataArray δ α) (moms : List δ) (combined : Option δ) (d : δ) : ℕ :=
  if combined = some d then moms.length else obj.size d

theorem selNames_size {obj : DataArray δ α} {moms : List δ} (hc : moms.length = 1 ∨ moms.length = 2)
    {combined : δ} (hf : combined ∉ moms) (name : String) (sq : Bool) :
    (selNames moms name sq (some combined)).map (selSize obj moms (some combined))
      = selShape name sq (moms.map obj.size) := by
  have hm : ∀ l : List δ, (∀ d ∈ l, d ∈ moms) →
      l.map (selSize obj moms (some combined)) = l.map obj.size := by
    intro l hl
    refine List.map_congr_left fun d hd => ?_
    unfold selSize
    rw [if_neg]
    rintro h
    exact hf (Option.some.inj h ▸ hl d hd)
  unfold selNames selShape
  rw [List.length_map]
  split_ifs with h1 h2 h3 h4 h5 h6 h7 h8 h9
  all_goals first
    | rfl
    | (exact hm _ fun d h => h)
    | (rw [hm _ fun d h => List.mem_of_mem_drop h, List.map_drop])
    | (rw [hm _ fun d h => List.mem_of_mem_take h, List.map_take])
    | (simp [selSize, *]; done)
    | (exfalso; tauto)
    | skip
  all_goals
    rcases hc with hc | hc
    · simp_all [selSize]
    · simp [selSize, hc]

theorem selNames_size_opt {obj : DataArray δ α} {moms : List δ}
    (hc : moms.length = 1 ∨ moms.length = 2) {combined : Option δ} (hf : ∀ x ∈ combined, x ∉ moms)
    {name : String} {sq : Bool} (hl : (selNames moms name sq combined).length
      = (selShape name sq (moms.map obj.size)).length) :
    (selNames moms name sq combined).map (selSize obj moms combined)
      = selShape name sq (moms.map obj.size) := by
  cases combined with
  | some x => exact selNames_size hc (hf x rfl) name sq
  | none =>
    have hm : selSize obj moms none = obj.size := by
      funext d
      simp [selSize]
    rw [hm]
    unfold selNames selShape at hl ⊢
    rw [List.length_map] at hl ⊢
    split_ifs at hl ⊢ with h1 h2 h3 h4 h5 h6 h7 h8 h9
    all_goals first
      | rfl
      | (rw [List.map_drop])
      | (rw [List.map_take])
      | (simp at hl; done)

theorem selNames_length (moms : List δ) (hc : moms.length = 1 ∨ moms.length = 2) (combined : δ)
    (name : String) (sq : Bool) (obj : DataArray δ α) :
    (selNames moms name sq (some combined)).length = (selShape name sq (moms.map obj.size)).length := by
  unfold selNames selShape
  rw [List.length_map]
  split_ifs with h1 h2 h3 h4 h5 h6 h7 h8 h9
  all_goals first
    | rfl
    | (simp; done)
    | (simp [*]; done)
    | (exfalso; tauto)
    | skip

/-- The combined dimension, if the selection has it. -/
theorem selNames_used (moms : List δ) (name : String) (sq : Bool) (combined : δ) :
    ∃ o : Option δ, selNames moms name sq (some combined) = selNames moms name sq o ∧
      ∀ x ∈ o, x = combined ∧ combined ∈ selNames moms name sq (some combined) := by
  by_cases h : combined ∈ selNames moms name sq (some combined)
  · exact ⟨some combined, rfl, by simpa using h⟩
  · refine ⟨none, ?_, by simp⟩
    unfold selNames at h ⊢
    split_ifs at h ⊢ <;> simp_all

end Cmomy.Labelled

namespace Cmomy.Labelled

open Spec Select

variable {δ : Type} [DecidableEq δ] {α : Type}

theorem loop_names_nodup {obj : DataArray δ α} {moms : List δ} (g : MomentObject obj moms)
    {name : String} {sq : Bool} {combined : Option δ} (hf : ∀ x ∈ combined, x ∉ valDims obj moms) :
    (valDims obj moms ++ selNames moms name sq combined).Nodup := by
  refine List.nodup_append'.2 ⟨(valDims_nodup g.object).of_append_left,
    selNames_nodup g.object.momDistinct _ _ _, fun d h1 h2 => ?_⟩
  rcases selNames_sub moms name sq combined with h | h
  · exact (mem_valDims.1 h1).2 (h d h2)
  · rw [h] at h2
    exact hf d (by simpa using h2) h1

/-- `apply_ufunc` as `select_moment` calls it. -/
theorem select_run {β : Type} {obj : DataArray δ α} {moms names : List δ} (g : MomentObject obj moms)
    (hf : ∀ d ∈ names, d ∉ valDims obj moms) (f : Nd.Arr α → Py (Nd.Arr β)) :
    ∃ out, IsObject out ((valDims obj moms).map obj.size) (moms.map obj.size) ∧
      (∀ c ms, ms.length = moms.length →
        out.get (atMom (valDims obj moms).length (coordsAlong (valDims obj moms) c) ms)
          = entry obj (withNames moms ms c)) ∧
      applyUfunc obj moms [] names [] f = (f out).bind
        (wrapResult [obj.frame] [] (valDims obj moms ++ names)) := by
  obtain ⟨out, h1, h2, h3⟩ := momentObject_arranged g
  refine ⟨out, h2, h3, ?_⟩
  have hl : loopDims [obj.frame] [] (moms ++ [] ++ names) = .ok (valDims obj moms) := by
    unfold loopDims unifiedDims
    rw [if_neg (by simpa [DataArray.frame] using g.object.distinct), if_neg (by simp)]
    simp only [Except.map, List.flatMap_cons, List.flatMap_nil, List.append_nil, List.not_mem_nil,
      not_false_eq_true, decide_true, List.filter_true]
    rw [show (DataArray.frame obj).1 = obj.dims from rfl, firstNames_self g.object.distinct]
    congr 1
    unfold valDims
    refine List.filter_congr fun d hd => ?_
    rw [decide_eq_decide, List.mem_append]
    constructor
    · exact fun h h' => h (.inl h')
    · rintro h (h' | h')
      · exact h h'
      · exact hf d h' (mem_valDims.2 ⟨hd, h⟩)
  unfold applyUfunc
  rw [hl]
  simp only [Except.bind, h1]

theorem selectMomentX_ok {obj : DataArray δ α} {moms : List δ} (g : MomentObject obj moms)
    {name : String} {sq : Bool} {combined : δ} {ncoords : Option ℕ} (ha : name ≠ "all")
    (hs : Selectable name sq (moms.map obj.size)) (hf : combined ∈ selNames moms name sq (some combined) → combined ∉ obj.dims)
    (hc : ncoords.getD moms.length = moms.length) :
    ∃ out, selectMomentX moms obj name sq combined ncoords = .ok out ∧
      out.dims = valDims obj moms ++ selNames moms name sq (some combined) ∧
      (∀ d ∈ valDims obj moms, out.size d = obj.size d) ∧
      (selNames moms name sq (some combined)).map out.size = selShape name sq (moms.map obj.size) ∧
      ∀ p ∈ selection name sq (moms.map obj.size), ∀ c,
        entry out (withNames (selNames moms name sq (some combined)) p.1 c)
          = entry obj (withNames moms p.2 c) := by
  have hk : name ∈ knownNames moms.length := by simpa using hs.1
  obtain ⟨o, ho, ho'⟩ := selNames_used moms name sq combined
  have hfo : ∀ x ∈ o, x ∉ obj.dims := fun x hx => by
    obtain ⟨rfl, h⟩ := ho' x hx
    exact hf h
  have hl := selNames_length moms g.count combined name sq obj
  rw [ho] at hl ⊢
  have hn : (valDims obj moms ++ selNames moms name sq o).Nodup :=
    loop_names_nodup g (fun x hx h => hfo x hx (mem_valDims.1 h).1)
  obtain ⟨a, h1, h2, h3⟩ := select_run (names := selNames moms name sq o) g
    (fun d hd hd' => List.disjoint_of_nodup_append hn hd' hd)
    (fun a => selectMoment a (Select.axesLast moms.length) name sq)
  obtain ⟨b, b1, b2, b3, b4⟩ := h1.select hs
  rw [List.length_map] at b1 b4
  have hsz := selNames_size_opt (obj := obj) g.count
    (fun x hx h => hfo x hx (g.object.momPresent _ h)) hl
  have hv : ∀ d ∈ valDims obj moms, selSize obj moms o d = obj.size d := by
    intro d hd
    unfold selSize
    rw [if_neg]
    intro h
    exact hfo _ h (mem_valDims.1 hd).1
  have hshape : b.shape = (valDims obj moms ++ selNames moms name sq o).map
      (selSize obj moms o) := by
    rw [b2, List.map_append, hsz]
    congr 1
    exact List.map_congr_left fun d hd => (hv d hd).symm
  have hw : wrapResult [obj.frame] [] (valDims obj moms ++ selNames moms name sq o) b
      = .ok (.ofNd (valDims obj moms ++ selNames moms name sq o) b) := by
    refine wrapResult_ok hn hshape fun f hf' d hd hdf _ => ?_
    obtain rfl := List.mem_singleton.1 hf'
    unfold selSize
    rw [if_neg]
    · rfl
    · intro h
      exact hfo _ h hdf
  have hsize : ∀ d ∈ valDims obj moms ++ selNames moms name sq o,
      (DataArray.ofNd (valDims obj moms ++ selNames moms name sq o) b).size d
        = selSize obj moms o d := by
    intro d hd
    have hi := List.idxOf_lt_length_iff.2 hd
    show b.shape.getD _ 0 = _
    rw [hshape, List.getD_eq_getElem _ _ (by simpa using hi), List.getElem_map, List.getElem_idxOf]
  refine ⟨.ofNd (valDims obj moms ++ selNames moms name sq o) b, ?_, rfl,
    fun d hd => ?_, ?_, fun p hp c => ?_⟩
  · unfold selectMomentX
    rw [if_neg ha, if_neg (fun h => h.2 hc), selectCore_eq hk ha, ho, h3, b1]
    exact hw
  · rw [hsize d (List.mem_append_left _ hd), hv d hd]
  · rw [← hsz]
    exact List.map_congr_left fun d hd => hsize d (List.mem_append_right _ hd)
  · have hpos : ∀ s ∈ moms.map obj.size, 0 < s := by
      intro s hs'
      obtain ⟨d, hd, rfl⟩ := List.mem_map.1 hs'
      have := g.orders d hd
      omega
    have hw1 := selection_within (by simpa using g.count) hpos hs hp
    have hl1 : p.1.length = (selNames moms name sq o).length := by
      have := List.Forall₂.length_eq hw1
      rw [this, ← hsz, List.length_map]
    have hl2 : p.2.length = moms.length := by
      simpa using List.Forall₂.length_eq (hs.2 p hp)
    rw [ofNd_names hn b3 (by rw [hshape]; simp) hl1, b4 p hp, h2 c p.2 hl2]

/-- Names and moments that are not there. -/
theorem selectMomentX_fails {obj : DataArray δ α} {moms : List δ} (g : MomentObject obj moms)
    {name : String} {sq : Bool} {combined : δ} {ncoords : Option ℕ}
    (hf : combined ∉ valDims obj moms) (hc : ncoords.getD moms.length = moms.length) :
    (name ∉ knownNames moms.length →
      selectMomentX moms obj name sq combined ncoords = .error .valueError) ∧
    (name ∈ knownNames moms.length → name ≠ "all" → ¬ Selectable name sq (moms.map obj.size) →
      selectMomentX moms obj name sq combined ncoords = .error .indexError) := by
  have hcore : ∀ d ∈ selectCore moms name sq combined, d ∉ valDims obj moms := by
    intro d hd h
    have hm := (mem_valDims.1 h).2
    unfold selectCore at hd
    split_ifs at hd with h1 h2 h3
    · obtain rfl := List.mem_singleton.1 hd
      exact hf h
    · exact hm (List.mem_of_mem_drop hd)
    · exact hm (List.mem_of_mem_take hd)
    · simp at hd
  obtain ⟨a, h1, h2, h3⟩ := select_run (names := selectCore moms name sq combined) g hcore
    (fun a => selectMoment a (Select.axesLast moms.length) name sq)
  have hr := C40_select_rejects a _ h1.good name sq
  rw [h1.momSizes_eq] at hr
  have hl : (Select.axesLast (moms.map obj.size).length).length = moms.length := by
    simp [Select.axesLast]
  rw [hl, List.length_map] at hr
  constructor
  · intro hk
    have ha : name ≠ "all" := by rintro rfl; exact hk (by simp [knownNames])
    unfold selectMomentX
    rw [if_neg ha, if_neg (fun h => h.2 hc), h3, hr.1 hk]
    rfl
  · intro hk ha hs
    unfold selectMomentX
    rw [if_neg ha, if_neg (fun h => h.2 hc), h3, hr.2 hk hs]
    rfl

theorem perVariable_of_names {moms : List δ} {name : String} {sq : Bool} {combined : δ}
    (hf : combined ∉ moms) (h : combined ∈ selNames moms name sq (some combined)) :
    perVariable moms.length name sq = true ∧ name ≠ "all" ∧ name ∈ knownNames moms.length ∧
      selNames moms name sq (some combined) = [combined] := by
  unfold selNames at h ⊢
  unfold perVariable
  split_ifs at h ⊢ with h1 h2 h3 h4 h5
  · exact absurd h hf
  · simp at h
  · refine ⟨?_, h1, ?_, rfl⟩
    · rw [Bool.and_eq_true]
      refine ⟨by simpa using h2, ?_⟩
      by_cases hd : moms.length = 1 <;> cases sq <;> simp_all
    · unfold knownNames
      rcases h2 with rfl | rfl <;> simp
  · exact absurd (List.mem_of_mem_drop h) hf
  · exact absurd (List.mem_of_mem_take h) hf
  · simp at h

/-- The name for the variables is the name of another dimension. -/
theorem selectMomentX_in_use {obj : DataArray δ α} {moms : List δ} (g : MomentObject obj moms)
    {name : String} {sq : Bool} {combined : δ} {ncoords : Option ℕ}
    (hf : combined ∈ valDims obj moms) (hs : combined ∈ selNames moms name sq (some combined)) :
    selectMomentX moms obj name sq combined ncoords = .error .valueError := by
  obtain ⟨h1, h2, h3, h4⟩ := perVariable_of_names (mem_valDims.1 hf).2 hs
  unfold selectMomentX
  rw [if_neg h2]
  split_ifs with hc
  · rfl
  · rw [selectCore_eq h3 h2, h4]
    unfold applyUfunc
    cases hl : loopDims [obj.frame] [] (moms ++ [] ++ [combined]) with
    | error e =>
      have := loopDims_error hl
      rw [this]; rfl
    | ok loop =>
      have hnl : combined ∉ loop := by
        unfold loopDims at hl
        cases hu : unifiedDims [obj.frame] [] with
        | error e => rw [hu] at hl; simp [Except.map] at hl
        | ok ds =>
          rw [hu] at hl
          simp only [Except.map, Except.ok.injEq] at hl
          rw [← hl]
          simp
      have hnt : combined ∉ loop ++ moms := by
        rw [List.mem_append]
        rintro (h | h)
        · exact hnl h
        · exact (mem_valDims.1 hf).2 h
      have : compatData obj loop moms = .error .valueError := by
        unfold compatData
        rw [if_neg (fun h => hnt (by rw [h]; exact (mem_valDims.1 hf).1)),
          if_pos ⟨combined, (mem_valDims.1 hf).1, hnt⟩]
      simp only [Except.bind, this]

end Cmomy.Labelled

namespace Cmomy

open Spec Select Nd

/-- Assigning several values to an array. -/
theorem Spec.IsObject.assignMany {K : Type*} {sq : Bool} {vs ms : List ℕ} (copy : Bool) :
    ∀ (values : List (String × Arr K)) {obj : Arr K}, IsObject obj vs ms →
      (∀ p ∈ values, Selectable p.1 sq ms ∧ p.2.Proper ∧
        Broadcasts p.2.shape (vs ++ selShape p.1 sq ms)) →
      ∃ out, assignMoment obj (Select.axesLast ms.length) values sq copy
          = (if copy then obj else out, .ok out) ∧ IsObject out vs ms ∧
        ∀ i, InBounds vs i → ∀ m, Within ms m → out.get (atMom vs.length i m)
          = values.foldl (fun x p =>
              match (selection p.1 sq ms).find? (fun q => decide (q.2 = m)) with
              | some q => stretch p.2 (vs ++ selShape p.1 sq ms).length (atMom vs.length i q.1)
              | none => x) (obj.get (atMom vs.length i m)) := by
  have hax : (Select.axesLast ms.length).length = ms.length := by simp [Select.axesLast]
  have hun : ∀ (values : List (String × Arr K)) (obj : Arr K) (copy : Bool),
      assignMoment obj (Select.axesLast ms.length) values sq copy
        = (if copy then obj else (assignLoop ms.length sq values obj).1,
            match (assignLoop ms.length sq values obj).2 with
            | some e => .error e
            | none => .ok (assignLoop ms.length sq values obj).1) := by
    intro values obj copy
    unfold assignMoment
    simp only [hax, ne_eq, not_true_eq_false, if_false]
    cases (assignLoop ms.length sq values obj).2 <;> rfl
  intro values
  induction values with
  | nil =>
    intro obj h _
    refine ⟨obj, ?_, h, fun i hi m hm => rfl⟩
    rw [hun]
    cases copy <;> rfl
  | cons v l ih =>
    intro obj h hv
    obtain ⟨n, v⟩ := v
    obtain ⟨h1, h2, h3⟩ := hv (n, v) List.mem_cons_self
    obtain ⟨a, a1, a2, a3⟩ := h.assign h1 h2 h3 false
    have hset : setItem obj ms.length n sq v = .ok a := by
      rw [hun] at a1
      unfold assignLoop at a1
      cases hs : setItem obj ms.length n sq v with
      | error e => rw [hs] at a1; simp at a1
      | ok w =>
        rw [hs] at a1
        simp only [assignLoop, Bool.false_eq_true, if_false, Prod.mk.injEq] at a1
        rw [a1.1]
    obtain ⟨b, b1, b2, b3⟩ := ih a2 fun p hp => hv p (List.mem_cons_of_mem _ hp)
    have hl : assignLoop ms.length sq ((n, v) :: l) obj = assignLoop ms.length sq l a := by
      rw [assignLoop, hset]
    refine ⟨b, ?_, b2, fun i hi m hm => ?_⟩
    · rw [hun] at b1 ⊢
      rw [hl]
      simp only [Prod.mk.injEq] at b1
      obtain ⟨b4, b5⟩ := b1
      rw [b5]
      cases copy with
      | true => rfl
      | false =>
        simp only [Bool.false_eq_true, if_false] at b4 ⊢
        rw [b4]
    · rw [b3 i hi m hm, List.foldl_cons]
      congr 1
      obtain ⟨a4, a5⟩ := a3 i hi m hm
      cases hq : (selection n sq ms).find? (fun q => decide (q.2 = m)) with
      | some q =>
        have e1 := List.find?_some hq
        rw [decide_eq_true_eq] at e1
        have e2 := List.mem_of_find?_eq_some hq
        subst e1
        exact a4 q.1 e2
      | none =>
        refine a5 fun c hc => ?_
        have := List.find?_eq_none.1 hq _ hc
        simp at this

end Cmomy

namespace Cmomy.Labelled

open Spec Select

variable {δ : Type} [DecidableEq δ]

section

variable {α : Type}

theorem written_entry {obj : DataArray δ α} {T : List δ} (hT : ∀ d ∈ T, d ∈ obj.dims)
    (w : Nd.Arr α) (c : δ → ℕ) : entry (obj.written T w) c = w.get (pos T c) := by
  have hdw : T.dropWhile (fun d => decide (d ∉ obj.dims)) = T := by
    rw [List.dropWhile_eq_self_iff]
    intro h
    simpa using hT _ (List.getElem_mem h)
  unfold entry DataArray.written
  simp only [hdw]
  congr 1
  funext p
  unfold pos
  cases h : T[p]? with
  | none => rfl
  | some d =>
    have hd := List.idxOf_lt_length_iff.2 (hT d (List.mem_of_getElem? h))
    simp only [Option.map_some, Option.getD_some]
    rw [List.getD_eq_getElem _ _ (by simpa using hd), List.getElem_map, List.getElem_idxOf]

end

variable {K : Type} [Field K] [DecidableEq K]

theorem value_opOk {obj : DataArray δ K} {moms : List δ} (g : MomentObject obj moms) {sq : Bool}
    {combined : Option δ} (hf : ∀ x ∈ combined, x ∉ obj.dims) {v : String × Operand δ K}
    (hv : GoodValue obj moms sq combined v) :
    OpOk (valDims obj moms) (selSize obj moms combined) (v.2, assignCore moms v.1 sq combined v.2) := by
  obtain ⟨name, v⟩ := v
  obtain ⟨hs, hv⟩ := hv
  cases v with
  | plain a =>
    refine ⟨?_, fun y hy => by cases hy⟩
    show (valDims obj moms ++ []).Nodup
    rw [List.append_nil]
    exact (valDims_nodup g.object).of_append_left
  | named y =>
    obtain ⟨h1, h2, h3, h4, h5⟩ := hv
    have hk : name ∈ knownNames moms.length := by simpa using hs.1
    show OpOk _ _ (_, assignCore moms name sq combined (.named y))
    rw [assignCore_named hk]
    refine ⟨loop_names_nodup g fun x hx h => hf x hx (mem_valDims.1 h).1, ?_⟩
    rintro y' hy
    obtain rfl := Operand.named.inj hy
    refine ⟨h1, h2, fun d hd => ⟨h3 d hd, ?_⟩⟩
    rcases List.mem_append.1 (h3 d hd) with h | h
    · rw [h4 d hd h]
      unfold selSize
      rw [if_neg]
      exact fun e => hf d (by simpa using e) (mem_valDims.1 h).1
    · have hl : (selNames moms name sq combined).length
          = (selShape name sq (moms.map obj.size)).length := by rw [← h5, List.length_map]
      have e := selNames_size_opt (obj := obj) g.count
        (fun x hx h => hf x hx (g.object.momPresent _ h)) hl
      exact List.map_inj_left.1 (h5.trans e.symm) d h

/-- What an arranged value shows. -/
theorem value_shown {obj : DataArray δ K} {moms : List δ} (g : MomentObject obj moms) {sq : Bool}
    {combined : Option δ} (hf : ∀ x ∈ combined, x ∉ obj.dims) {v : String × Operand δ K}
    (hv : GoodValue obj moms sq combined v) :
    let a := arrayAs (valDims obj moms) (v.2, assignCore moms v.1 sq combined v.2)
    a.Proper ∧ Broadcasts a.shape
      ((valDims obj moms).map obj.size ++ selShape v.1 sq (moms.map obj.size)) ∧
    ∀ c, InLabelled obj moms c → ∀ m, Within (selShape v.1 sq (moms.map obj.size)) m →
      stretch a ((valDims obj moms).map obj.size ++ selShape v.1 sq (moms.map obj.size)).length
        (atMom (valDims obj moms).length (coordsAlong (valDims obj moms) c) m)
        = shownBy (valDims obj moms) (selNames moms v.1 sq combined) c m v.2 := by
  obtain ⟨name, v⟩ := v
  obtain ⟨hs, hv⟩ := hv
  have hlm : ∀ m, Within (selShape name sq (moms.map obj.size)) m →
      ((valDims obj moms).map obj.size ++ selShape name sq (moms.map obj.size)).length
        = (valDims obj moms).length + m.length := by
    intro m hm
    rw [List.length_append, List.length_map, List.Forall₂.length_eq hm]
  cases v with
  | plain a =>
    refine ⟨hv.1, hv.2, fun c hc m hm => ?_⟩
    show stretch a _ _ = _
    rw [hlm m hm]
    rfl
  | named y =>
    obtain ⟨h1, h2, h3, h4, h5⟩ := hv
    have hk : name ∈ knownNames moms.length := by simpa using hs.1
    have hcore : assignCore moms name sq combined (.named y) = selNames moms name sq combined :=
      assignCore_named hk sq combined y
    obtain ⟨a, a1, a2, a3, a4⟩ := value_arranged y
      (loop_names_nodup g fun x hx h => hf x hx (mem_valDims.1 h).1) h1 h2 h3 h4
    have ha : arrayAs (valDims obj moms) (.named y, assignCore moms name sq combined (.named y)) = a := by
      rw [hcore]
      exact arrayAs_named a1
    show (arrayAs _ (.named y, assignCore moms name sq combined (.named y))).Proper ∧ _
    simp only [ha]
    rw [h5] at a3 a4
    refine ⟨a2, a3, fun c hc m hm => ?_⟩
    rw [hlm m hm]
    exact a4 c hc m hm

theorem assignPrepare_of {obj : DataArray δ K} {moms : List δ} (g : MomentObject obj moms)
    {combined : Option δ} (hf : ∀ x ∈ combined, x ∉ obj.dims) {ops : List (Operand δ K × List δ)}
    (ho : ∀ o ∈ ops, OpOk (valDims obj moms) (selSize obj moms combined) o)
    {out : Nd.Arr K} (hout : compatData obj (valDims obj moms) moms = .ok out) :
    assignPrepare moms obj ops = .ok (valDims obj moms, out, ops.map (arrayAs (valDims obj moms))) ∧
    ∀ w : Nd.Arr K, w.shape = (valDims obj moms ++ moms).map obj.size →
      wrapResult (assignFrames obj ops) []
        (valDims obj moms ++ moms) w = .ok (.ofNd (valDims obj moms ++ moms) w) := by
  have hz : ∀ d ∈ obj.dims, obj.size d = selSize obj moms combined d := by
    intro d hd
    unfold selSize
    rw [if_neg]
    exact fun e => hf d (by simpa using e) hd
  have hm : ops.mapM
      (fun o : Operand δ K × List δ => o.1.arrangeAs (valDims obj moms) o.2)
      = .ok (ops.map (arrayAs (valDims obj moms))) :=
    Nd.mapM_ok_of_forall _ _ _ fun o h => arrayAs_ok (ho o h)
  constructor
  · unfold assignPrepare assignFrames
    rw [push_loop g.object hz ho]
    simp only [Except.bind, hout, hm, Except.map]
  · intro w hw
    refine wrapResult_ok (size := selSize obj moms combined) (valDims_nodup g.object) ?_ ?_
    · rw [hw]
      exact List.map_congr_left fun d hd => hz d ((valDims_perm g.object).mem_iff.1 hd)
    · intro f hf d _ hdf _
      rcases List.mem_cons.1 hf with rfl | hf
      · exact (hz d hdf).symm
      · obtain ⟨o, h8, h9⟩ := List.mem_filterMap.1 hf
        obtain ⟨o, cs⟩ := o
        cases o with
        | named y =>
          obtain rfl : y.frame = f := by simpa [Operand.frame?] using h9
          exact ((((ho _ h8).2 y rfl).2.2 d hdf).2).symm
        | plain a => simp [Operand.frame?] at h9

theorem assignPrepare_ok {obj : DataArray δ K} {moms : List δ} (g : MomentObject obj moms)
    {sq : Bool} {combined : Option δ} (hf : ∀ x ∈ combined, x ∉ obj.dims)
    {values : List (String × Operand δ K)} (hv : ∀ v ∈ values, GoodValue obj moms sq combined v)
    {out : Nd.Arr K} (hout : compatData obj (valDims obj moms) moms = .ok out) :
    assignPrepare moms obj (assignOps moms values sq combined) = .ok (valDims obj moms, out,
      (assignOps moms values sq combined).map (arrayAs (valDims obj moms))) ∧
    ∀ w : Nd.Arr K, w.shape = (valDims obj moms ++ moms).map obj.size →
      wrapResult (assignFrames obj (assignOps moms values sq combined)) []
        (valDims obj moms ++ moms) w = .ok (.ofNd (valDims obj moms ++ moms) w) :=
  assignPrepare_of g hf (fun o ho => by
    obtain ⟨v, hv', rfl⟩ := List.mem_map.1 ho
    exact value_opOk g hf (hv v hv')) hout

/-- Assigning values to the moments of a labelled object. -/
theorem assignMomentX_ok {obj : DataArray δ K} {moms : List δ} (g : MomentObject obj moms)
    {sq : Bool} {combined : Option δ} (hf : ∀ x ∈ combined, x ∉ obj.dims)
    {values : List (String × Operand δ K)} (hv : ∀ v ∈ values, GoodValue obj moms sq combined v)
    (copy : Bool) :
    ∃ after out, assignMomentX moms obj values sq combined copy = (after, .ok out) ∧
      ShowsNamed out (valDims obj moms ++ moms) obj.size (assignedAt obj moms sq combined values) ∧
      ShowsNamed after obj.dims obj.size
        (if copy then entry obj else assignedAt obj moms sq combined values) := by
  have hn := valDims_nodup g.object
  have hperm := valDims_perm g.object
  obtain ⟨out, h1, h2, h3⟩ := momentObject_arranged g
  obtain ⟨p1, p2⟩ := assignPrepare_ok g hf hv h1
  have hzip : (values.map Prod.fst).zip
      ((assignOps moms values sq combined).map (arrayAs (valDims obj moms)))
      = values.map (fun v => (v.1, arrayAs (valDims obj moms)
          (v.2, assignCore moms v.1 sq combined v.2))) := by
    unfold assignOps
    rw [List.map_map, List.zip_map']
    rfl
  obtain ⟨w, w1, w2, w3⟩ := h2.assignMany (sq := sq) copy
    (values.map (fun v => (v.1, arrayAs (valDims obj moms)
      (v.2, assignCore moms v.1 sq combined v.2)))) (by
    intro p hp
    obtain ⟨v, hv', rfl⟩ := List.mem_map.1 hp
    obtain ⟨a1, a2, -⟩ := value_shown g hf (hv v hv')
    exact ⟨(hv v hv').1, a1, a2⟩)
  rw [List.length_map] at w1
  have hws : w.shape = (valDims obj moms ++ moms).map obj.size := by
    rw [w2.shape, List.map_append]
  have hpos : ∀ s ∈ moms.map obj.size, 0 < s := by
    intro s hs'
    obtain ⟨d, hd, rfl⟩ := List.mem_map.1 hs'
    have := g.orders d hd
    omega
  have hval : ∀ c, (∀ d ∈ obj.dims, c d < obj.size d) →
      w.get (pos (valDims obj moms ++ moms) c) = assignedAt obj moms sq combined values c := by
    intro c hc
    have hcv : InLabelled obj moms c := fun d hd => hc d (mem_valDims.1 hd).1
    rw [pos_eq_atMom]
    have := w3 (coordsAlong (valDims obj moms) c) (inBounds_coords hcv) (moms.map c)
      (within_map fun d hd => hc d (g.object.momPresent d hd))
    rw [List.length_map] at this
    rw [this, List.foldl_map]
    unfold assignedAt
    rw [h3 c (moms.map c) (by simp)]
    have hself : entry obj (withNames moms (moms.map c) c) = entry obj c := by
      refine entry_congr obj fun d hd => ?_
      unfold withNames
      split_ifs with h
      · have := List.idxOf_lt_length_iff.2 h
        rw [List.getD_eq_getElem _ _ (by simpa using this), List.getElem_map, List.getElem_idxOf]
      · rfl
    rw [hself]
    have key : ∀ (l : List (String × Operand δ K)) (x : K),
        (∀ v ∈ l, GoodValue obj moms sq combined v) →
        l.foldl (fun x v =>
          match (selection v.1 sq (moms.map obj.size)).find? (fun q => decide (q.2 = moms.map c)) with
          | some q => stretch (arrayAs (valDims obj moms) (v.2, assignCore moms v.1 sq combined v.2))
              ((valDims obj moms).map obj.size ++ selShape v.1 sq (moms.map obj.size)).length
              (atMom (valDims obj moms).length (coordsAlong (valDims obj moms) c) q.1)
          | none => x) x
        = l.foldl (fun x v =>
          match (selection v.1 sq (moms.map obj.size)).find? (fun p => decide (p.2 = moms.map c)) with
          | some p => shownBy (valDims obj moms) (selNames moms v.1 sq combined) c p.1 v.2
          | none => x) x := by
      intro l
      induction l with
      | nil => intro x _; rfl
      | cons v l ih =>
        intro x hl
        rw [List.foldl_cons, List.foldl_cons]
        have hgv := hl v List.mem_cons_self
        have : (match (selection v.1 sq (moms.map obj.size)).find?
              (fun q => decide (q.2 = moms.map c)) with
            | some q => stretch (arrayAs (valDims obj moms) (v.2, assignCore moms v.1 sq combined v.2))
              ((valDims obj moms).map obj.size ++ selShape v.1 sq (moms.map obj.size)).length
              (atMom (valDims obj moms).length (coordsAlong (valDims obj moms) c) q.1)
            | none => x)
            = (match (selection v.1 sq (moms.map obj.size)).find?
              (fun p => decide (p.2 = moms.map c)) with
            | some p => shownBy (valDims obj moms) (selNames moms v.1 sq combined) c p.1 v.2
            | none => x) := by
          cases hq : (selection v.1 sq (moms.map obj.size)).find?
              (fun q => decide (q.2 = moms.map c)) with
          | none => rfl
          | some q =>
            exact (value_shown g hf hgv).2.2 c hcv q.1
              (selection_within (by simpa using g.count) hpos hgv.1 (List.mem_of_find?_eq_some hq))
        rw [this]
        exact ih _ fun v' h' => hl v' (List.mem_cons_of_mem _ h')
    exact key values (entry obj c) hv
  have hmem : ∀ d, d ∈ valDims obj moms ++ moms ↔ d ∈ obj.dims := fun d => hperm.mem_iff
  refine ⟨obj.written (valDims obj moms ++ moms) (if copy then out else w),
    .ofNd (valDims obj moms ++ moms) w, ?_, ?_, ?_⟩
  · unfold assignMomentX
    simp only [p1, hzip]
    rw [w1]
    simp only [Except.bind, p2 w hws]
  · refine ⟨rfl, fun d hd => ?_, fun c hc => ?_⟩
    · have hi := List.idxOf_lt_length_iff.2 hd
      show w.shape.getD _ 0 = _
      rw [hws, List.getD_eq_getElem _ _ (by simpa using hi), List.getElem_map, List.getElem_idxOf]
    · rw [ofNd_entry]
      exact hval c fun d hd => hc d ((hmem d).2 hd)
  · refine ⟨rfl, fun d hd => rfl, fun c hc => ?_⟩
    rw [written_entry (fun d hd => (hmem d).1 hd)]
    cases copy with
    | false =>
      simp only [Bool.false_eq_true, if_false]
      exact hval c hc
    | true =>
      simp only [if_true]
      rw [pos_eq_atMom, h3 c (moms.map c) (by simp)]
      refine entry_congr obj fun d hd => ?_
      unfold withNames
      split_ifs with h
      · have := List.idxOf_lt_length_iff.2 h
        rw [List.getD_eq_getElem _ _ (by simpa using this), List.getElem_map, List.getElem_idxOf]
      · rfl

theorem momCoords_self {obj : DataArray δ K} {moms : List δ} (c : δ → ℕ) :
    entry obj (withNames moms (moms.map c) c) = entry obj c := by
  refine entry_congr obj fun d hd => ?_
  unfold withNames
  split_ifs with h
  · have := List.idxOf_lt_length_iff.2 h
    rw [List.getD_eq_getElem _ _ (by simpa using this), List.getElem_map, List.getElem_idxOf]
  · rfl

/-- A value without labels that cannot be assigned. -/
theorem assignMomentX_fails {obj : DataArray δ K} {moms : List δ} (g : MomentObject obj moms)
    {name : String} {sq : Bool} {combined : Option δ} (hf : ∀ x ∈ combined, x ∉ obj.dims)
    {a : Nd.Arr K} (ha : a.Proper) (copy : Bool) :
    ∃ after, ShowsNamed after obj.dims obj.size (entry obj) ∧
    (name ∉ knownNames moms.length →
      assignMomentX moms obj [(name, .plain a)] sq combined copy = (after, .error .valueError)) ∧
    (name ∈ knownNames moms.length → ¬ Selectable name sq (moms.map obj.size) →
      assignMomentX moms obj [(name, .plain a)] sq combined copy = (after, .error .indexError)) ∧
    (Selectable name sq (moms.map obj.size) →
      ¬ Broadcasts a.shape ((valDims obj moms).map obj.size ++ selShape name sq (moms.map obj.size)) →
      assignMomentX moms obj [(name, .plain a)] sq combined copy = (after, .error .valueError)) := by
  obtain ⟨out, h1, h2, h3⟩ := momentObject_arranged g
  have hz := h2.momSizes_eq
  have ht := h2.target_eq name sq
  rw [List.length_map] at hz ht
  have hk : (Select.axesLast moms.length).length = moms.length := by simp [Select.axesLast]
  have hg := h2.good
  rw [List.length_map] at hg
  obtain ⟨r1, r2, r3⟩ := C40_assign_rejects out (Select.axesLast moms.length) hg [] [] (by simp) (by simp)
    sq copy out (by
      unfold assignMoment
      simp only [hk, ne_eq, not_true_eq_false, if_false, assignLoop]) name a ha
  rw [hk] at r1 r2
  rw [hz] at r2 r3
  rw [ht] at r3
  simp only [ite_self, List.nil_append] at r1 r2 r3
  obtain ⟨p1, -⟩ := assignPrepare_of g hf (ops := assignOps moms [(name, .plain a)] sq combined) (by
    intro o ho
    obtain rfl : o = (.plain a, []) := by simpa [assignOps, assignCore] using ho
    refine ⟨?_, fun y hy => by cases hy⟩
    simpa using (valDims_nodup g.object).of_append_left) h1
  have e : arrayAs (valDims obj moms) (Operand.plain a, ([] : List δ)) = a := rfl
  have run : ∀ {er}, assignMoment out (Select.axesLast moms.length) [(name, a)] sq copy = (out, .error er) →
      assignMomentX moms obj [(name, .plain a)] sq combined copy
        = (obj.written (valDims obj moms ++ moms) out, .error er) := by
    intro er h
    unfold assignMomentX
    simp only [p1]
    have : (([(name, Operand.plain a)] : List (String × Operand δ K)).map Prod.fst).zip
        ((assignOps moms [(name, .plain a)] sq combined).map (arrayAs (valDims obj moms)))
        = [(name, a)] := rfl
    rw [this, h]
    rfl
  refine ⟨obj.written (valDims obj moms ++ moms) out, ⟨rfl, fun d hd => rfl, fun c hc => ?_⟩,
    fun h => run (r1 h), fun h h' => run (r2 h h'), fun h h' => run (r3 h h')⟩
  rw [written_entry (fun d hd => (valDims_perm g.object).mem_iff.1 hd), pos_eq_atMom,
    h3 c (moms.map c) (by simp)]
  exact momCoords_self c

/-- A labelled value that does not fit. -/
theorem assignMomentX_refused {obj : DataArray δ K} {moms : List δ} {values : List (String × Operand δ K)}
    {sq : Bool} {combined : Option δ} {name : String} {y : DataArray δ K}
    (hk : name ∈ knownNames moms.length) (hv : (name, .named y) ∈ values)
    (h : (∃ d ∈ y.dims, d ∈ obj.dims ∧ y.size d ≠ obj.size d) ∨
      (∃ d ∈ selNames moms name sq combined, d ∉ y.dims) ∨
      ∃ d ∈ y.dims, d ∈ moms ∧ d ∉ selNames moms name sq combined) (copy : Bool) :
    assignMomentX moms obj values sq combined copy = (obj, .error .valueError) := by
  have hop : (Operand.named y, selNames moms name sq combined) ∈ assignOps moms values sq combined :=
    List.mem_map.2 ⟨_, hv, by rw [← assignCore_named hk sq combined y]⟩
  have he : assignPrepare moms obj (assignOps moms values sq combined) = .error .valueError := by
    unfold assignPrepare
    cases hl : loopDims (assignFrames obj (assignOps moms values sq combined)) []
        (moms ++ (assignOps moms values sq combined).flatMap Prod.snd) with
    | error e => rw [loopDims_error hl]; rfl
    | ok loop =>
      show ((compatData obj loop moms).bind fun out => _) = _
      cases hobj : compatData obj loop moms with
      | error e => rw [compatData_error hobj]; rfl
      | ok out =>
        show Except.map _ _ = _
        cases hm : (assignOps moms values sq combined).mapM
            (fun o : Operand δ K × List δ => o.1.arrangeAs loop o.2) with
        | error e =>
          rw [show e = .valueError from Nd.mapM_error _ (· = .valueError) _ (fun o _ e he => by
            obtain ⟨o, cs⟩ := o
            cases o with
            | named y => exact compatData_error he
            | plain a => cases he) hm]
          rfl
        | ok as =>
          exfalso
          obtain ⟨-, -, l3, l4⟩ := loopDims_inv hl
          obtain ⟨b, -, hb⟩ := mapM_ok_mem hm _ hop
          obtain ⟨c1, c2⟩ := compatData_inv (show compatData y loop _ = .ok b from hb)
          rcases h with ⟨d, d1, d2, d3⟩ | ⟨d, d1, d2⟩ | ⟨d, d1, d2, d3⟩
          · refine d3 (l3 y.frame ?_ obj.frame ?_ d d1 d2)
            · exact List.mem_cons_of_mem _ (List.mem_filterMap.2 ⟨_, hop, rfl⟩)
            · exact List.mem_cons_self
          · exact d2 (c1 d d1)
          · rcases List.mem_append.1 (c2 d d1) with h | h
            · exact ((l4 d).1 h).1 (List.mem_append_left _ d2)
            · exact d3 h
  unfold assignMomentX
  simp only [he]

end Cmomy.Labelled
