import Verif.Model.ObjectStats
import Verif.Spec.ObjectStats
import Verif.Lemmas.Select
import Verif.Lemmas.AxisOps

/-!
# Lemmas about array objects with trailing moment axes
-/

namespace Cmomy

open Spec Nd Select ObjectStats

section

variable {K M : Type*}

theorem atCoords_append (n : ℕ) (i : ℕ → ℕ) (c : List ℕ) :
    atCoords ((List.range n).map i ++ c) = atMom n i c := by
  funext p
  unfold atCoords atMom
  by_cases h : p < n
  · rw [if_pos h, List.getD_append _ _ _ _ (by simpa using h)]
    simp [h]
  · rw [if_neg h, List.getD_append_right _ _ _ _ (by simpa using h)]
    simp

theorem inBounds_atMom {vs ms : List ℕ} {i : ℕ → ℕ} {m : List ℕ} (hi : InBounds vs i)
    (hm : Within ms m) : InBounds (vs ++ ms) (atMom vs.length i m) := by
  intro ax hax
  unfold atMom
  by_cases h : ax < vs.length
  · rw [if_pos h, List.getD_append _ _ _ _ h]
    exact hi ax h
  · rw [if_neg h, List.getD_append_right _ _ _ _ (by omega)]
    have hl : ax - vs.length < ms.length := by simp at hax; omega
    have hl' : ax - vs.length < m.length := by rw [List.Forall₂.length_eq hm]; exact hl
    have := List.Forall₂.get hm hl' hl
    simpa [List.getD_eq_getElem?_getD, hl, hl'] using this

theorem idxOf_shift {n k q : ℕ} (h1 : n ≤ q) (h2 : q < n + k) :
    ((List.range k).map (fun j => n + j)).idxOf q = q - n := by
  have hnd : ((List.range k).map (fun j => n + j)).Nodup :=
    List.nodup_range.map (fun a b h => by simpa using h)
  have hq : ((List.range k).map (fun j => n + j))[q - n]'(by simp; omega) = q := by
    simp; omega
  conv_lhs => rw [← hq]
  exact hnd.idxOf_getElem _ _

variable {obj : Arr K} {vs ms : List ℕ}

namespace Spec.IsObject

theorem length (h : IsObject obj vs ms) : obj.shape.length = vs.length + ms.length := by
  rw [h.shape]; simp

theorem momPos_eq (h : IsObject obj vs ms) :
    momPos obj (Select.axesLast ms.length) = (List.range ms.length).map (fun j => vs.length + j) := by
  have := Nd.axesLast_wrap' (n := obj.shape.length) (nd := ms.length) (by rw [h.length]; omega)
  unfold momPos
  refine Eq.trans this ?_
  refine List.map_congr_left fun j _ => ?_
  rw [h.length]; omega

theorem momSizes_eq (h : IsObject obj vs ms) : momSizes obj (Select.axesLast ms.length) = ms := by
  unfold momSizes
  rw [h.momPos_eq, List.map_map]
  refine List.ext_getElem (by simp) fun p h1 h2 => ?_
  simp [axisSize, h.shape, List.getElem?_append_right, List.getElem?_eq_getElem h2]

theorem valPos_eq (h : IsObject obj vs ms) :
    valPos obj (Select.axesLast ms.length) = List.range vs.length := by
  unfold valPos
  rw [h.momPos_eq, h.length]
  have := Nd.keptAxes_tail (n := vs.length + ms.length) (m := ms.length) (by omega)
  simpa using this

theorem target_eq (h : IsObject obj vs ms) (name : String) (sq : Bool) :
    targetShape obj (Select.axesLast ms.length) name sq = vs ++ selShape name sq ms := by
  unfold targetShape
  rw [h.valPos_eq, h.momSizes_eq]
  congr 1
  refine List.ext_getElem (by simp) fun p h1 h2 => ?_
  simp [axisSize, h.shape, List.getElem?_append_left h2, List.getElem?_eq_getElem h2]

theorem good (h : IsObject obj vs ms) : GoodMoments obj (Select.axesLast ms.length) where
  proper := h.proper
  count := by simpa [Select.axesLast] using h.count
  range := Nd.axesLast_range' (by rw [h.length]; omega)
  distinct := by
    have := h.momPos_eq
    unfold momPos at this
    rw [this]
    exact List.nodup_range.map (fun a b h => by simpa using h)
  positive := by
    intro a ha
    have : axisSize obj a ∈ momSizes obj (Select.axesLast ms.length) := List.mem_map.2 ⟨a, ha, rfl⟩
    rw [h.momSizes_eq] at this
    have := h.orders _ this
    omega

theorem map_momPos (h : IsObject obj vs ms) (i : ℕ → ℕ) {m : List ℕ} (hm : m.length = ms.length) :
    (momPos obj (Select.axesLast ms.length)).map (atMom vs.length i m) = m := by
  rw [h.momPos_eq, List.map_map]
  refine List.ext_getElem (by simp [hm]) fun p h1 h2 => ?_
  simp [atMom, List.getElem?_eq_getElem h2]

theorem map_valPos (h : IsObject obj vs ms) (i : ℕ → ℕ) (m : List ℕ) :
    (valPos obj (Select.axesLast ms.length)).map (atMom vs.length i m)
      = (List.range vs.length).map i := by
  rw [h.valPos_eq]
  refine List.map_congr_left fun p hp => ?_
  rw [atMom, if_pos (List.mem_range.1 hp)]

theorem get_congr (h : IsObject obj vs ms) {i j : ℕ → ℕ} (e : ∀ p < vs.length + ms.length, i p = j p) :
    obj.get i = obj.get j := h.proper i j (by rw [h.length]; exact e)

/-- Selecting a moment by name. -/
theorem select (h : IsObject obj vs ms) {name : String} {sq : Bool} (hs : Selectable name sq ms) :
    ∃ out, selectMoment obj (Select.axesLast ms.length) name sq = .ok out ∧
      out.shape = vs ++ selShape name sq ms ∧ out.Proper ∧
      ∀ p ∈ selection name sq ms, ∀ i,
        out.get (atMom vs.length i p.1) = obj.get (atMom vs.length i p.2) := by
  have e := h.momSizes_eq
  obtain ⟨out, h1, h2, h3⟩ := select_spec h.good (name := name) (sq := sq) (by
    have : Selectable name sq (momSizes obj (Select.axesLast ms.length)) := by rw [e]; exact hs
    exact this)
  refine ⟨out, h1, ?_, select_proper h.good h1, fun p hp i => ?_⟩
  · exact h2.trans (h.target_eq name sq)
  · have := (h3 p (by
      have : p ∈ selection name sq (momSizes obj (Select.axesLast ms.length)) := by rw [e]; exact hp
      exact this) (atMom vs.length i p.2)).2
    have e1 := h.map_valPos i p.2
    unfold valPos momPos at e1
    rw [e1, atCoords_append] at this
    rw [this]
    refine h.get_congr fun q hq => ?_
    unfold withMoment
    have e2 := h.momPos_eq
    unfold momPos at e2
    rw [e2]
    by_cases hv : q < vs.length
    · rw [if_neg (by simp; omega)]
    · have hin : q ∈ (List.range ms.length).map (fun j => vs.length + j) := by
        simp only [List.mem_map, List.mem_range]
        exact ⟨q - vs.length, by omega, by omega⟩
      rw [if_pos hin, atMom, if_neg hv]
      rw [idxOf_shift (by omega) hq]

/-- Assigning one value. -/
theorem assign (h : IsObject obj vs ms) {name : String} {sq : Bool} (hs : Selectable name sq ms)
    {v : Arr K} (hv : v.Proper) (hb : Broadcasts v.shape (vs ++ selShape name sq ms)) (copy : Bool) :
    ∃ out, assignMoment obj (Select.axesLast ms.length) [(name, v)] sq copy
        = (if copy then obj else out, .ok out) ∧ IsObject out vs ms ∧
      ∀ i, InBounds vs i → ∀ m, Within ms m →
        (∀ c, (c, m) ∈ selection name sq ms → out.get (atMom vs.length i m)
          = stretch v (vs ++ selShape name sq ms).length (atMom vs.length i c)) ∧
        ((∀ c, (c, m) ∉ selection name sq ms) →
          out.get (atMom vs.length i m) = obj.get (atMom vs.length i m)) := by
  have e := h.momSizes_eq
  have et := h.target_eq name sq
  obtain ⟨out, h1, h2, h3, h4⟩ := assign_spec h.good (name := name) (sq := sq) (by
    have : Selectable name sq (momSizes obj (Select.axesLast ms.length)) := by rw [e]; exact hs
    exact this) hv (by
    have : Broadcasts v.shape (targetShape obj (Select.axesLast ms.length) name sq) := by
      rw [et]; exact hb
    exact this) copy
  refine ⟨out, h1, ⟨h3, h2.trans h.shape, h.count, h.orders⟩, fun i hi m hm => ?_⟩
  have hml : m.length = ms.length := List.Forall₂.length_eq hm
  have e1 := h.map_valPos i m
  have e2 := h.map_momPos i hml
  unfold valPos momPos at e1
  unfold momPos at e2
  have e3 : (List.map (axisSize obj) (List.map (wrap obj.shape.length) (Select.axesLast ms.length)))
      = ms := e
  have e4 : List.map (axisSize obj) (keptAxes obj.shape.length
      (List.map (wrap obj.shape.length) (Select.axesLast ms.length))) ++ selShape name sq ms
      = vs ++ selShape name sq ms := by
    have := et
    unfold targetShape at this
    rwa [e] at this
  have := h4 (atMom vs.length i m) (by rw [e2, e3]; exact hm)
  rw [e1, e2, e3, e4] at this
  simp only [atCoords_append] at this
  exact this

end Spec.IsObject

theorem place_proper {α : Type*} {loop core sizes : List ℕ} {f : (ℕ → ℕ) → List ℕ → α}
    (h : ∀ c ∈ core, c < loop.length + core.length) : (place loop core sizes f).Proper := by
  intro i j e
  have hl : (place loop core sizes f).shape.length = loop.length + core.length := by simp [place]
  rw [hl] at e
  unfold place
  have e1 : core.map i = core.map j := List.map_congr_left fun c hc => e c (h c hc)
  have e2 : (fun q : ℕ => ((loopAxes (loop.length + core.length) core)[q]?.map i).getD 0)
      = fun q : ℕ => ((loopAxes (loop.length + core.length) core)[q]?.map j).getD 0 := by
    funext q
    cases hq : (loopAxes (loop.length + core.length) core)[q]? with
    | none => rfl
    | some a =>
      have : a ∈ loopAxes (loop.length + core.length) core := List.mem_of_getElem? hq
      unfold loopAxes at this
      have := List.mem_range.1 (List.mem_of_mem_filter this)
      simp [e a this]
  simp only [e1, e2]

variable [Field K] [DecidableEq K]

/-- Converting every record. -/
theorem Spec.IsObject.convert (h : IsObject obj vs ms) {core : Core K M} (hc : core.Ok)
    (hn : ms.length = core.nd) (conv : M → M) :
    ∃ out, momentsTypeNd core conv false obj (Nd.axesLast core.nd) false = .ok out ∧
      out.Proper ∧ out.shape = vs ++ ms ∧
      ∀ i, InBounds vs i → ∀ m, Within ms m → out.get (atMom vs.length i m)
        = core.ent (conv (core.recd fun l => obj.get (atMom vs.length i l))) m := by
  have hl : core.nd ≤ obj.shape.length := by rw [h.length]; omega
  obtain ⟨out, h1, h2, h3⟩ := (momentsTypeNd_spec hc conv false h.proper
    (Nd.axesLast_range' hl) (by rw [Nd.axesLast_wrap' hl]; exact nodup_shift _ _)
    (by simp [Nd.axesLast]) false).2 (.inl rfl)
  simp only [Bool.false_eq_true, if_false] at h2 h3
  refine ⟨out, h1, ?_, ?_, fun i hi m hm => ?_⟩
  · have h1' := h1
    unfold momentsTypeNd at h1'
    simp only [Bool.false_eq_true, if_false, coreAxes_last hl, Except.bind, false_and] at h1'
    rw [← Except.ok.inj h1']
    refine place_proper fun c hc' => ?_
    obtain ⟨j, hj, rfl⟩ := List.mem_map.1 hc'
    have := List.mem_range.1 hj
    unfold Arr.loopShape
    rw [List.length_map, List.length_map, List.length_range, loopAxes_eq, keptAxes_tail hl,
      List.length_range]
    omega
  · rw [h2, ← h.shape]
    exact List.ext_getElem (by simp) fun p a b => by simp [axisSize, List.getElem?_eq_getElem b]
  · have hml : m.length = ms.length := List.Forall₂.length_eq hm
    have hb := inBounds_atMom hi hm
    have e0 : along (List.range obj.shape.length) (atMom vs.length i m) = atMom vs.length i m := by
      funext p
      unfold along
      by_cases hp : p < obj.shape.length
      · simp [hp]
      · rw [List.getElem?_eq_none (by simpa using hp)]
        rw [h.length] at hp
        unfold atMom
        rw [if_neg (by omega), List.getD_eq_default _ _ (by omega)]
        rfl
    have e1 := h3 (atMom vs.length i m) (by
      intro a ha
      have := hb a (by rw [← h.shape]; exact List.mem_range.1 ha)
      rwa [← h.shape] at this)
    rw [e0] at e1
    have hmp : (Nd.axesLast core.nd).map (wrap obj.shape.length)
        = momPos obj (Select.axesLast ms.length) := by rw [← hn]; rfl
    rw [hmp, h.map_momPos i hml] at e1
    rw [e1]
    congr 2
    unfold recordAt
    refine hc.recd_congr _ _ fun l hl' => ?_
    refine h.get_congr fun q hq => ?_
    rw [h.momPos_eq]
    by_cases hv : q < vs.length
    · rw [if_neg (by simp; omega), atMom, atMom, if_pos hv, if_pos hv]
    · rw [if_pos (by
        simp only [List.mem_map, List.mem_range]
        exact ⟨q - vs.length, by omega, by omega⟩), idxOf_shift (by omega) hq, atMom, if_neg hv]

end

end Cmomy
