import Verif.Lemmas.Select
import Verif.Props.NdArray

/-!
# C40: selecting and assigning moments by name
-/

namespace Cmomy

open Spec Nd Select

section

variable {K : Type*}

/-- The names accepted are the documented ones. -/
theorem C40_known_names (name : String) (d : ℕ) (sq : Bool) :
    momentIndexer name d sq = .error .valueError ↔ name ∉ knownNames d := by
  unfold momentIndexer knownNames
  by_cases h1 : name = "all"; · subst h1; simp
  by_cases h2 : name = "ave"; · subst h2; simp
  by_cases h3 : name = "var"; · subst h3; simp
  rw [if_neg h1, if_neg h2, if_neg h3]
  by_cases hd : d = 1
  · simp only [hd, if_true, momentIndexer1, List.lookup]
    by_cases h4 : name = "weight"; · subst h4; simp
    by_cases h5 : name = "cov"; · subst h5; simp
    by_cases h6 : name = "xave"; · subst h6; simp
    by_cases h7 : name = "xvar"; · subst h7; simp
    simp [beq_eq_false_iff_ne.2 h4, beq_eq_false_iff_ne.2 h5, beq_eq_false_iff_ne.2 h6,
      beq_eq_false_iff_ne.2 h7, *]
  · simp only [hd, if_false, momentIndexer2, List.lookup]
    by_cases h4 : name = "weight"; · subst h4; simp
    by_cases h5 : name = "cov"; · subst h5; simp
    by_cases h6 : name = "xave"; · subst h6; simp
    by_cases h7 : name = "xvar"; · subst h7; simp
    by_cases k1 : name = "yave"; · subst k1; simp
    by_cases k2 : name = "yvar"; · subst k2; simp
    by_cases k3 : name = "xmom_0"; · subst k3; simp
    by_cases k4 : name = "xmom_1"; · subst k4; simp
    by_cases k5 : name = "ymom_0"; · subst k5; simp
    by_cases k6 : name = "ymom_1"; · subst k6; simp
    simp [beq_eq_false_iff_ne.2 h4, beq_eq_false_iff_ne.2 h5, beq_eq_false_iff_ne.2 h6,
      beq_eq_false_iff_ne.2 h7, beq_eq_false_iff_ne.2 k1, beq_eq_false_iff_ne.2 k2,
      beq_eq_false_iff_ne.2 k3, beq_eq_false_iff_ne.2 k4, beq_eq_false_iff_ne.2 k5,
      beq_eq_false_iff_ne.2 k6, *]

example : "yave" ∉ knownNames 1 ∧ "yave" ∈ knownNames 2 ∧ "mean" ∉ knownNames 2 := by decide

/-- Two rows of moments up to order 2, the moment axis in front. -/
def exSel : Arr ℚ := ⟨[3, 2], fun i => 10 * i 0 + i 1⟩

theorem exSel_good : GoodMoments exSel [0] where
  proper := by
    intro i j h
    have h0 := h 0 (by decide)
    have h1 := h 1 (by decide)
    simp [exSel, h0, h1]
  count := by decide
  range := by unfold InRange; decide
  distinct := by decide
  positive := by decide

/-- One row of comoments up to order 1 by 2, moment axes `(1, 0)` of `(3, 2)`. -/
def exSel2 : Arr ℚ := ⟨[3, 2], fun i => 10 * i 0 + i 1⟩

theorem exSel2_good : GoodMoments exSel2 [1, 0] where
  proper := exSel_good.proper
  count := by decide
  range := by unfold InRange; decide
  distinct := by decide
  positive := by decide

/-- The shape and some elements. -/
def items (r : Py (Arr ℚ)) (idx : List (List ℕ)) : Option (List ℕ × List ℚ) :=
  match r with
  | .ok a => some (a.shape, idx.map (fun l => a.get (atCoords l)))
  | .error _ => none

theorem exSel_var : Selectable "var" false (momSizes exSel [0]) :=
  ⟨by decide, by simp [selection, selection1, exSel, wrap, axisSize, Within]⟩

theorem exSel_ave : Selectable "ave" false (momSizes exSel [0]) :=
  ⟨by decide, by simp [selection, selection1, exSel, wrap, axisSize, Within]⟩

theorem exSel2_xmom : Selectable "xmom_1" true (momSizes exSel2 [1, 0]) := by
  refine ⟨by decide, ?_⟩
  simp [selection, selection2, exSel2, wrap, axisSize, Within]

/-- A value to assign: one number for both rows. -/
def exVal : Arr ℚ := ⟨[1], fun _ => 7⟩

/-- A value to assign: one number per row. -/
def exVal2 : Arr ℚ := ⟨[2, 1], fun i => 5 + i 0⟩

theorem exVal_proper : exVal.Proper := fun _ _ _ => rfl

theorem exVal2_proper : exVal2.Proper := fun i j h => by
  have h0 := h 0 (by decide)
  simp [exVal2, h0]

theorem broadcasts_of {vs shape : List ℕ}
    (h : ∀ k < vs.length, vs.reverse.getD k 0 = 1 ∨ shape.reverse[k]? = some (vs.reverse.getD k 0)) :
    Broadcasts vs shape := by
  intro k a hk
  have hlt : k < vs.length := by
    have := (List.getElem?_eq_some_iff.1 hk).1; simpa using this
  have := h k hlt
  rw [List.getD_eq_getElem?_getD, hk] at this
  simpa using this

theorem exVal_fits : Broadcasts exVal.shape (targetShape exSel [0] "var" false) :=
  broadcasts_of (by decide)

theorem exVal2_fits : Broadcasts exVal2.shape (targetShape exSel [0] "var" false) :=
  broadcasts_of (by decide)

/-- A selection holds exactly the moments its name stands for, at every value position, wherever
the moment axes are. -/
theorem C40_select (data : Arr K) (mom : List ℤ) (g : GoodMoments data mom) (name : String)
    (sq : Bool) (hsel : Selectable name sq (momSizes data mom)) :
    ∃ out, selectMoment data mom name sq = .ok out ∧ out.shape = targetShape data mom name sq ∧
      ∀ p ∈ selection name sq (momSizes data mom), ∀ i,
        out.get (atCoords ((valPos data mom).map i ++ p.1))
          = data.get (withMoment (momPos data mom) p.2 i) := by
  obtain ⟨out, h1, h2, h3⟩ := select_spec g hsel
  exact ⟨out, h1, h2, fun p hp i => (h3 p hp i).2⟩

example := C40_select exSel [0] exSel_good "var" false exSel_var

example := C40_select exSel2 [1, 0] exSel2_good "xmom_1" true exSel2_xmom

example : items (selectMoment exSel [0] "var" false) [[0, 0], [1, 0]]
    = some ([2, 1], [20, 21]) := by decide +kernel

example : items (selectMoment exSel2 [1, 0] "xmom_1" true) [[0], [1], [2]]
    = some ([3], [1, 11, 21]) := by decide +kernel

/-- Every coordinate of a selection shows some moment, and no coordinate shows two. -/
theorem C40_select_complete (data : Arr K) (mom : List ℤ) (g : GoodMoments data mom)
    (name : String) (sq : Bool) (hsel : Selectable name sq (momSizes data mom)) (c : List ℕ) :
    Within (selShape name sq (momSizes data mom)) c ↔
      ∃! m, (c, m) ∈ selection name sq (momSizes data mom) := by
  obtain ⟨h1, _, _⟩ := subFor_spec name sq (sizes := momSizes data mom)
    (by simpa using g.count) (by
      intro s hs
      obtain ⟨a, ha, rfl⟩ := List.mem_map.1 hs
      exact g.positive a ha)
  obtain ⟨sub, _, esh, ok⟩ := h1 hsel
  rw [← esh]
  constructor
  · intro h
    exact ⟨sub.locate c, (ok.locate _ _).2 ⟨h, rfl⟩, fun m hm => ((ok.locate _ _).1 hm).2.symm⟩
  · rintro ⟨m, hm, _⟩
    exact ((ok.locate _ _).1 hm).1

example := C40_select_complete exSel2 [1, 0] exSel2_good "xmom_1" true exSel2_xmom [2]

/-- Unknown names are refused with `ValueError`, known names whose moments are not there with
`IndexError`. -/
theorem C40_select_rejects (data : Arr K) (mom : List ℤ) (g : GoodMoments data mom) (name : String)
    (sq : Bool) :
    (name ∉ knownNames mom.length → selectMoment data mom name sq = .error .valueError) ∧
    (name ∈ knownNames mom.length → ¬ Selectable name sq (momSizes data mom) →
      selectMoment data mom name sq = .error .indexError) := by
  obtain ⟨_, h2, h3⟩ := subFor_spec name sq (sizes := momSizes data mom)
    (by simpa using g.count) (by
      intro s hs
      obtain ⟨a, ha, rfl⟩ := List.mem_map.1 hs
      exact g.positive a ha)
  have hl : (momSizes data mom).length = mom.length := by simp
  rw [hl] at h2 h3
  constructor
  · intro h; rw [select_uniform g, h2 h]; rfl
  · intro h h'; rw [select_uniform g, h3 h h']; rfl

example := (C40_select_rejects exSel [0] exSel_good "yave" true).1 (by decide)

example := (C40_select_rejects exSel2 [1, 0] exSel2_good "xvar" true).2 (by decide) (by
  intro h
  have := h.2 ([], [2, 0]) (by decide)
  simp [Within, exSel2, wrap, axisSize] at this)

/-- One assignment: the named moments get the (repeated) value, everything else stays. With `copy`
the caller's array is untouched, without it the caller's array becomes the result. -/
theorem C40_assign (data : Arr K) (mom : List ℤ) (g : GoodMoments data mom) (name : String)
    (sq copy : Bool) (hsel : Selectable name sq (momSizes data mom)) (v : Arr K) (hv : v.Proper)
    (hb : Broadcasts v.shape (targetShape data mom name sq)) :
    ∃ out, assignMoment data mom [(name, v)] sq copy = (if copy then data else out, .ok out) ∧
      out.shape = data.shape ∧
      ∀ i, InBounds data.shape i →
        (∀ c, (c, (momPos data mom).map i) ∈ selection name sq (momSizes data mom) →
          out.get i = stretch v (targetShape data mom name sq).length
            (atCoords ((valPos data mom).map i ++ c))) ∧
        ((∀ c, (c, (momPos data mom).map i) ∉ selection name sq (momSizes data mom)) →
          out.get i = data.get i) := by
  obtain ⟨out, h1, h2, _, h4⟩ := assign_spec g hsel hv hb copy
  exact ⟨out, h1, h2, fun i hi => h4 i (within_of_inBounds g hi)⟩

example := C40_assign exSel [0] exSel_good "var" false true exSel_var exVal2 exVal2_proper
  exVal2_fits

example : items (assignMoment exSel [0] [("var", exVal2)] false false).2
    [[0, 0], [0, 1], [1, 0], [1, 1], [2, 0], [2, 1]] = some ([3, 2], [0, 1, 10, 11, 5, 6]) := by decide +kernel

/-- Several assignments in one call are done one after the other, in the order given: the later ones
see, and overwrite, the result of the earlier ones. -/
theorem C40_assign_sequence (data : Arr K) (mom : List ℤ) (g : GoodMoments data mom)
    (l l' : List (String × Arr K)) (hl : ∀ p ∈ l, p.2.Proper) (hl' : ∀ p ∈ l', p.2.Proper)
    (sq copy : Bool) (a : Arr K) (h : (assignMoment data mom l sq copy).2 = .ok a) :
    assignMoment data mom (l ++ l') sq copy
      = (if copy then data else (assignMoment a mom l' sq false).1,
          (assignMoment a mom l' sq false).2) :=
  assign_append g hl hl' h

example : ∃ a, (assignMoment exSel [0] [("ave", exVal)] false true).2 = .ok a ∧
    assignMoment exSel [0] ([("ave", exVal)] ++ [("var", exVal2)]) false true
      = (exSel, (assignMoment a [0] [("var", exVal2)] false false).2) := by
  obtain ⟨a, h, _⟩ := C40_assign exSel [0] exSel_good "ave" false true exSel_ave exVal exVal_proper
    (broadcasts_of (by decide))
  refine ⟨a, by rw [h], ?_⟩
  exact C40_assign_sequence exSel [0] exSel_good _ _ (by simpa using exVal_proper)
    (by simpa using exVal2_proper) false true a (by rw [h])

example : items (assignMoment exSel [0] [("all", exVal), ("var", exVal2)] false false).2
    [[0, 0], [0, 1], [1, 0], [1, 1], [2, 0], [2, 1]] = some ([3, 2], [7, 7, 7, 7, 5, 6]) := by decide +kernel

/-- Copying protects the caller's array, whatever the outcome; without copying a successful call
leaves the result in it. -/
theorem C40_copy (data : Arr K) (mom : List ℤ) (g : GoodMoments data mom)
    (l : List (String × Arr K)) (hl : ∀ p ∈ l, p.2.Proper) (sq : Bool) :
    (assignMoment data mom l sq true).1 = data ∧
    (assignMoment data mom l sq true).2 = (assignMoment data mom l sq false).2 ∧
    ∀ a, (assignMoment data mom l sq false).2 = .ok a → (assignMoment data mom l sq false).1 = a := by
  refine ⟨?_, ?_, fun a h => ?_⟩
  · obtain ⟨o', _, _, huni⟩ := assign_uniform g
    rw [huni l hl]; rfl
  · obtain ⟨o', _, _, huni⟩ := assign_uniform g
    rw [huni l hl, huni l hl]; rfl
  · rw [(assign_result g hl h).2.2]; rfl

example := C40_copy exSel [0] exSel_good [("var", exVal), ("nothing", exVal)]
  (by simp [exVal_proper]) false

/-- A selection, described for a reader: every element of it is a moment. -/
theorem index_of_selection {data : Arr K} {mom : List ℤ} (g : GoodMoments data mom) {name : String}
    {sq : Bool} (hsel : Selectable name sq (momSizes data mom)) {r : ℕ → ℕ}
    (hr : InBounds (targetShape data mom name sq) r) :
    ∃ c m i, (c, m) ∈ selection name sq (momSizes data mom) ∧ InBounds data.shape i ∧
      (momPos data mom).map i = m ∧ withMoment (momPos data mom) m i = i ∧
      ∀ ax < (targetShape data mom name sq).length,
        r ax = atCoords ((valPos data mom).map i ++ c) ax := by
  have hv : (valPos data mom).Nodup := keptAxes_nodup _ _
  set c := coords (valPos data mom).length (selShape name sq (momSizes data mom)).length r with hc
  have hcw : Within (selShape name sq (momSizes data mom)) c := by
    unfold Within
    rw [List.forall₂_iff_get]
    refine ⟨by simp [hc, coords], fun t h1 h2 => ?_⟩
    have := hr ((valPos data mom).length + t) (by
      unfold targetShape; rw [List.length_append, List.length_map]; omega)
    unfold targetShape at this
    rw [List.getD_append_right _ _ _ _ (by simp), List.length_map, Nat.add_sub_cancel_left,
      List.getD_eq_getElem _ _ h2] at this
    simpa [hc, coords] using this
  obtain ⟨m, hm, _⟩ := (C40_select_complete data mom g name sq hsel c).1 hcw
  have hmw := hsel.2 _ hm
  have hml : m.length = (momPos data mom).length := by
    have := within_length hmw; simpa using this
  refine ⟨c, m, withMoment (momPos data mom) m (fun a => r ((valPos data mom).idxOf a)), hm, ?_, ?_,
    ?_, ?_⟩
  · intro a ha
    unfold withMoment
    by_cases hin : a ∈ momPos data mom
    · rw [if_pos hin]
      have hidx := List.idxOf_lt_length_iff.2 hin
      have := (List.forall₂_iff_get.1 hmw).2 ((momPos data mom).idxOf a) (by show _ < m.length; omega) (by simpa using hidx)
      simp only [List.get_eq_getElem, List.getElem_map] at this
      rw [List.getD_eq_getElem _ _ (by omega)]
      refine this.trans_eq ?_
      unfold axisSize
      have e : (List.map (wrap data.shape.length) mom)[(momPos data mom).idxOf a]'hidx = a :=
        List.getElem_idxOf hidx
      simp only [List.getElem_map] at e
      rw [e]
    · rw [if_neg hin]
      have hmem : a ∈ valPos data mom := mem_keptAxes.2 ⟨ha, hin⟩
      have hidx := List.idxOf_lt_length_iff.2 hmem
      have := hr ((valPos data mom).idxOf a) (by simp; omega)
      unfold targetShape at this
      rw [List.getD_append _ _ _ _ (by simpa using hidx),
        List.getD_eq_getElem _ _ (by simpa using hidx), List.getElem_map, List.getElem_idxOf] at this
      exact this
  · refine List.ext_getElem (by simp [hml]) fun t h1 h2 => ?_
    have ht : t < (momPos data mom).length := by simpa using h1
    rw [List.getElem_map]
    unfold withMoment
    rw [if_pos (List.getElem_mem ht), g.distinct.idxOf_getElem _ _, List.getD_eq_getElem _ _ h2]
  · funext a
    unfold withMoment
    by_cases hin : a ∈ momPos data mom
    · rw [if_pos hin]; simp only [hin, if_true]
    · rw [if_neg hin]
  · intro ax hax
    unfold atCoords
    by_cases h : ax < (valPos data mom).length
    · rw [getD_map_append_left _ h]
      have hmem : (valPos data mom).getD ax 0 ∈ valPos data mom := by
        rw [List.getD_eq_getElem _ _ h]; exact List.getElem_mem h
      unfold withMoment
      rw [if_neg (mem_keptAxes.1 hmem).2]
      show r ax = r (List.idxOf ((valPos data mom).getD ax 0) (valPos data mom))
      rw [idxOf_getD hv h]
    · rw [List.getD_append_right _ _ _ _ (by simpa using h), List.length_map]
      have hlt : ax - (valPos data mom).length
          < (selShape name sq (momSizes data mom)).length := by
        simp only [targetShape, List.length_append, List.length_map] at hax
        have : (valPos data mom).length = (valPos data mom).length := rfl
        omega
      rw [List.getD_eq_getElem _ _ (by simpa [hc, coords] using hlt)]
      simp only [hc, coords, List.getElem_map, List.getElem_range]
      congr 1; omega

/-- Put then get: selecting what was assigned returns the assigned value (repeated to the shape of
the selection). -/
theorem C40_select_after_assign (data : Arr K) (mom : List ℤ) (g : GoodMoments data mom)
    (name : String) (sq copy : Bool) (hsel : Selectable name sq (momSizes data mom)) (v : Arr K)
    (hv : v.Proper) (hb : Broadcasts v.shape (targetShape data mom name sq)) (a : Arr K)
    (h : (assignMoment data mom [(name, v)] sq copy).2 = .ok a) :
    ∃ s, selectMoment a mom name sq = .ok s ∧ s.shape = targetShape data mom name sq ∧ s.Proper ∧
      ∀ r, InBounds s.shape r → s.get r = stretch v s.shape.length r := by
  obtain ⟨hap, hash, he⟩ := assign_result g (by simpa using hv) h
  have ga := good_of_shape g hap hash
  obtain ⟨out, h1, h2, h3, h4⟩ := assign_spec g hsel hv hb copy
  rw [he] at h1
  have : a = out := Except.ok.inj (Prod.mk.inj h1).2
  subst this
  have hsz : momSizes a mom = momSizes data mom := by
    unfold momSizes momPos axisSize; rw [hash]
  have hvp : valPos a mom = valPos data mom := by
    unfold valPos momPos; rw [hash]
  have hts : targetShape a mom name sq = targetShape data mom name sq := by
    unfold targetShape
    rw [hsz, hvp]
    congr 1
    unfold axisSize; rw [hash]
  have hmp : momPos a mom = momPos data mom := by unfold momPos; rw [hash]
  obtain ⟨s, e1, e2, e3⟩ := C40_select a mom ga name sq (by rw [hsz]; exact hsel)
  have hsp : s.Proper := select_proper ga e1
  refine ⟨s, e1, e2.trans hts, hsp, fun r hr => ?_⟩
  rw [e2, hts] at hr
  obtain ⟨c, m, i, hcm, hi, hmi, hwi, hri⟩ := index_of_selection g hsel hr
  have hsr : s.get r = s.get (atCoords ((valPos data mom).map i ++ c)) :=
    hsp _ _ fun ax hax => hri ax (by rw [← hts, ← e2]; exact hax)
  rw [hsr, e2, hts]
  have := e3 (c, m) (by rw [hsz]; exact hcm) i
  rw [hvp, hmp] at this
  rw [this, hwi, ((h4 i (within_of_inBounds g hi)).1 c (by
    rw [show (mom.map (wrap data.shape.length)).map i = m from hmi]; exact hcm))]
  exact stretch_congr hv hb fun ax hax => (hri ax hax).symm

example : ∃ s a, (assignMoment exSel [0] [("var", exVal2)] false true).2 = .ok a ∧
    selectMoment a [0] "var" false = .ok s ∧ s.get (fun ax => 1 - ax) = 6 := by
  obtain ⟨a, h, _⟩ := C40_assign exSel [0] exSel_good "var" false true exSel_var exVal2
    exVal2_proper exVal2_fits
  obtain ⟨s, h1, h2, _, h4⟩ := C40_select_after_assign exSel [0] exSel_good "var" false true
    exSel_var exVal2 exVal2_proper exVal2_fits a (by rw [h])
  refine ⟨s, a, by rw [h], h1, ?_⟩
  rw [h4 _ (by rw [h2]; unfold InBounds; decide), h2]
  decide +kernel

/-- Get then put: assigning what was selected changes nothing. -/
theorem C40_assign_after_select (data : Arr K) (mom : List ℤ) (g : GoodMoments data mom)
    (name : String) (sq copy : Bool) (s : Arr K) (hs : selectMoment data mom name sq = .ok s) :
    ∃ a, (assignMoment data mom [(name, s)] sq copy).2 = .ok a ∧ SameArr a data := by
  have hsp : s.Proper := select_proper g hs
  have hsel : Selectable name sq (momSizes data mom) := by
    by_contra hns
    obtain ⟨h1, h2⟩ := C40_select_rejects data mom g name sq
    by_cases hk : name ∈ knownNames mom.length
    · rw [h2 hk hns] at hs; cases hs
    · rw [h1 hk] at hs; cases hs
  obtain ⟨s', e1, e2, e3⟩ := C40_select data mom g name sq hsel
  rw [hs] at e1
  have := Except.ok.inj e1
  subst this
  have hb : Broadcasts s.shape (targetShape data mom name sq) := by
    rw [e2]; intro k a h; exact .inr h
  obtain ⟨out, h1, h2, h3, h4⟩ := assign_spec g hsel hsp hb copy
  refine ⟨out, by rw [h1], h2, fun i hi => ?_⟩
  rw [h2] at hi
  obtain ⟨p1, p2⟩ := h4 i (within_of_inBounds g hi)
  by_cases hc : ∃ c, (c, (momPos data mom).map i) ∈ selection name sq (momSizes data mom)
  · obtain ⟨c, hc⟩ := hc
    rw [p1 c hc]
    have e := e3 _ hc i
    have hwi : withMoment (momPos data mom) ((momPos data mom).map i) i = i := by
      funext a
      unfold withMoment
      by_cases hin : a ∈ momPos data mom
      · have hidx := List.idxOf_lt_length_iff.2 hin
        rw [if_pos hin, List.getD_eq_getElem _ _ (by simpa using hidx), List.getElem_map]
        exact congrArg i (List.getElem_idxOf hidx)
      · rw [if_neg hin]
    simp only at e
    rw [hwi] at e
    rw [← e]
    unfold stretch
    refine hsp _ _ fun ax hax => ?_
    have hcw := ((C40_select_complete data mom g name sq hsel c).2 ⟨_, hc, by
      intro m' hm'
      obtain ⟨q1, _, _⟩ := subFor_spec name sq (sizes := momSizes data mom)
        (by simpa using g.count) (by
          intro s hs
          obtain ⟨a, ha, rfl⟩ := List.mem_map.1 hs
          exact g.positive a ha)
      obtain ⟨sub, _, _, ok⟩ := q1 hsel
      rw [← ((ok.locate _ _).1 hm').2, ((ok.locate _ _).1 hc).2]⟩)
    have hl : s.shape.length = (targetShape data mom name sq).length := by rw [e2]
    rw [hl] at hax ⊢
    rw [Nat.add_sub_cancel]
    by_cases h1 : s.shape.getD ax 0 = 1
    · rw [if_pos h1]
      rw [e2] at h1
      unfold atCoords
      unfold targetShape at h1 hax
      by_cases hlt : ax < (valPos data mom).length
      · rw [getD_map_append_left _ hlt]
        rw [List.getD_append _ _ _ _ (by simpa using hlt),
          List.getD_eq_getElem _ _ (by simpa using hlt), List.getElem_map] at h1
        have hmem : (valPos data mom)[ax] ∈ valPos data mom := List.getElem_mem hlt
        have := hi _ (mem_keptAxes.1 hmem).1
        unfold axisSize at h1
        rw [List.getD_eq_getElem (valPos data mom) _ hlt]
        omega
      · rw [List.getD_append_right _ _ _ _ (by simpa using hlt), List.length_map] at h1 ⊢
        have hlen := within_length hcw
        simp only [List.length_append, List.length_map] at hax
        have hlt' : ax - (valPos data mom).length
            < (selShape name sq (momSizes data mom)).length := by
          have : (valPos data mom).length = (valPos data mom).length := rfl
          omega
        have := (List.forall₂_iff_get.1 hcw).2 (ax - (valPos data mom).length) (by omega) hlt'
        simp only [List.get_eq_getElem] at this
        rw [List.getD_eq_getElem _ _ hlt'] at h1
        rw [List.getD_eq_getElem _ _ (by omega)]
        omega
    · rw [if_neg h1]
  · exact p2 fun c h => hc ⟨c, h⟩

example : ∃ s a, selectMoment exSel [0] "var" false = .ok s ∧
    (assignMoment exSel [0] [("var", s)] false true).2 = .ok a ∧ SameArr a exSel := by
  obtain ⟨s, h, _⟩ := C40_select exSel [0] exSel_good "var" false exSel_var
  obtain ⟨a, h1, h2⟩ := C40_assign_after_select exSel [0] exSel_good "var" false true s h
  exact ⟨s, a, h, h1, h2⟩

/-- Put then put: the later assignment of a name wins. -/
theorem C40_assign_twice (data : Arr K) (mom : List ℤ) (g : GoodMoments data mom)
    (name : String) (sq copy : Bool) (hsel : Selectable name sq (momSizes data mom)) (v w : Arr K)
    (hv : v.Proper) (hw : w.Proper) (hbv : Broadcasts v.shape (targetShape data mom name sq))
    (hbw : Broadcasts w.shape (targetShape data mom name sq)) :
    ∃ a b, (assignMoment data mom [(name, v), (name, w)] sq copy).2 = .ok a ∧
      (assignMoment data mom [(name, w)] sq copy).2 = .ok b ∧ SameArr a b := by
  obtain ⟨o1, h1, h2, h3, h4⟩ := assign_spec g hsel hv hbv copy
  obtain ⟨o2, k1, k2, k3, k4⟩ := assign_spec g hsel hw hbw copy
  have ga := good_of_shape g h3 h2
  have hsz : momSizes o1 mom = momSizes data mom := by
    unfold momSizes momPos axisSize; rw [h2]
  have hvp : valPos o1 mom = valPos data mom := by
    unfold valPos momPos; rw [h2]
  have hts : targetShape o1 mom name sq = targetShape data mom name sq := by
    unfold targetShape
    rw [hsz, hvp]
    congr 1
    unfold axisSize; rw [h2]
  have hmp : momPos o1 mom = momPos data mom := by unfold momPos; rw [h2]
  obtain ⟨o3, l1, l2, l3, l4⟩ := assign_spec ga (name := name) (sq := sq)
    (by rw [← hsz] at hsel; exact hsel) hw (by rw [← hts] at hbw; exact hbw) false
  refine ⟨o3, o2, ?_, by rw [k1], l2.trans (h2.trans k2.symm), fun i hi => ?_⟩
  · have := assign_append g (l := [(name, v)]) (l' := [(name, w)]) (by simpa using hv)
      (by simpa using hw) (sq := sq) (copy := copy) (a := o1) (by rw [h1])
    rw [List.singleton_append] at this
    rw [this, l1]
  · rw [l2] at hi
    obtain ⟨q1, q2⟩ := l4 i (within_of_inBounds ga hi)
    rw [h2] at hi
    obtain ⟨r1, r2⟩ := k4 i (within_of_inBounds g hi)
    obtain ⟨t1, t2⟩ := h4 i (within_of_inBounds g hi)
    change ∀ c, (c, (momPos o1 mom).map i) ∈ selection name sq (momSizes o1 mom) →
      o3.get i = stretch w (targetShape o1 mom name sq).length
        (atCoords ((valPos o1 mom).map i ++ c)) at q1
    change (∀ c, (c, (momPos o1 mom).map i) ∉ selection name sq (momSizes o1 mom)) →
      o3.get i = o1.get i at q2
    rw [hmp, hsz, hts, hvp] at q1
    rw [hmp, hsz] at q2
    by_cases hc : ∃ c, (c, (momPos data mom).map i) ∈ selection name sq (momSizes data mom)
    · obtain ⟨c, hc⟩ := hc
      rw [q1 c hc, r1 c hc]
    · have hc' : ∀ c, (c, (momPos data mom).map i) ∉ selection name sq (momSizes data mom) :=
        fun c h => hc ⟨c, h⟩
      rw [q2 hc', r2 hc', t2 hc']

example := C40_assign_twice exSel [0] exSel_good "var" false true exSel_var exVal exVal2 exVal_proper
  exVal2_proper exVal_fits exVal2_fits

/-- Assigning one name does not disturb a selection that shares no moment with it. -/
theorem C40_unrelated (data : Arr K) (mom : List ℤ) (g : GoodMoments data mom)
    (name other : String) (sq copy : Bool) (hsel : Selectable name sq (momSizes data mom))
    (hsel' : Selectable other sq (momSizes data mom))
    (hdis : ∀ p ∈ selection name sq (momSizes data mom),
      ∀ q ∈ selection other sq (momSizes data mom), p.2 ≠ q.2)
    (v : Arr K) (hv : v.Proper) (hb : Broadcasts v.shape (targetShape data mom name sq)) (a : Arr K)
    (h : (assignMoment data mom [(name, v)] sq copy).2 = .ok a) :
    ∃ s s', selectMoment data mom other sq = .ok s ∧ selectMoment a mom other sq = .ok s' ∧
      s.shape = s'.shape ∧
      ∀ q ∈ selection other sq (momSizes data mom), ∀ i, InBounds data.shape i →
        s.get (atCoords ((valPos data mom).map i ++ q.1))
          = s'.get (atCoords ((valPos data mom).map i ++ q.1)) := by
  obtain ⟨out, h1, h2, h3, h4⟩ := assign_spec g hsel hv hb copy
  rw [h1] at h
  have := Except.ok.inj h
  subst this
  have ga := good_of_shape g h3 h2
  have hsz : momSizes out mom = momSizes data mom := by
    unfold momSizes momPos axisSize; rw [h2]
  have hvp : valPos out mom = valPos data mom := by
    unfold valPos momPos; rw [h2]
  have hts : targetShape out mom other sq = targetShape data mom other sq := by
    unfold targetShape
    rw [hsz, hvp]
    congr 1
    unfold axisSize; rw [h2]
  have hmp : momPos out mom = momPos data mom := by unfold momPos; rw [h2]
  obtain ⟨s, e1, e2, e3⟩ := C40_select data mom g other sq hsel'
  obtain ⟨s', f1, f2, f3⟩ := C40_select out mom ga other sq (by rw [hsz]; exact hsel')
  rw [hsz] at f3
  refine ⟨s, s', e1, f1, by rw [e2, f2, hts], fun q hq i hi => ?_⟩
  have e := e3 q hq i
  have f := f3 q hq i
  rw [hvp, hmp] at f
  rw [e, f]
  have hqw := hsel'.2 q hq
  have hql : q.2.length = (momPos data mom).length := by
    have := within_length hqw; simpa using this
  have hmi : (momPos data mom).map (withMoment (momPos data mom) q.2 i) = q.2 := by
    refine List.ext_getElem (by simp [hql]) fun t h1 h2 => ?_
    have ht : t < (momPos data mom).length := by simpa using h1
    rw [List.getElem_map]
    unfold withMoment
    rw [if_pos (List.getElem_mem ht), g.distinct.idxOf_getElem _ _, List.getD_eq_getElem _ _ h2]
  refine ((h4 (withMoment (momPos data mom) q.2 i) ?_).2 fun c hc => ?_).symm
  · change Within (momSizes data mom) ((momPos data mom).map _)
    rw [hmi]; exact hqw
  · change (c, (momPos data mom).map _) ∈ selection name sq (momSizes data mom) at hc
    rw [hmi] at hc
    exact hdis _ hc q hq rfl

example : ∃ a s s', (assignMoment exSel [0] [("var", exVal2)] false true).2 = .ok a ∧
    selectMoment exSel [0] "ave" false = .ok s ∧ selectMoment a [0] "ave" false = .ok s' ∧
    s.shape = s'.shape := by
  obtain ⟨a, h, _⟩ := C40_assign exSel [0] exSel_good "var" false true exSel_var exVal2
    exVal2_proper exVal2_fits
  obtain ⟨s, s', h1, h2, h3, _⟩ := C40_unrelated exSel [0] exSel_good "var" "ave" false true
    exSel_var exSel_ave (by decide) exVal2 exVal2_proper exVal2_fits a (by rw [h])
  exact ⟨a, s, s', by rw [h], h1, h2, h3⟩

/-- A bad assignment stops the call: an unknown name or a value of the wrong shape with
`ValueError`, moments that are not there with `IndexError`. Without `copy` the assignments made
before it stay in the caller's array. -/
theorem C40_assign_rejects (data : Arr K) (mom : List ℤ) (g : GoodMoments data mom)
    (l l' : List (String × Arr K)) (hl : ∀ p ∈ l, p.2.Proper) (hl' : ∀ p ∈ l', p.2.Proper)
    (sq copy : Bool) (a : Arr K) (h : (assignMoment data mom l sq copy).2 = .ok a)
    (name : String) (v : Arr K) (hv : v.Proper) :
    (name ∉ knownNames mom.length →
      assignMoment data mom (l ++ (name, v) :: l') sq copy
        = (if copy then data else a, .error .valueError)) ∧
    (name ∈ knownNames mom.length → ¬ Selectable name sq (momSizes data mom) →
      assignMoment data mom (l ++ (name, v) :: l') sq copy
        = (if copy then data else a, .error .indexError)) ∧
    (Selectable name sq (momSizes data mom) →
      ¬ Broadcasts v.shape (targetShape data mom name sq) →
      assignMoment data mom (l ++ (name, v) :: l') sq copy
        = (if copy then data else a, .error .valueError)) := by
  obtain ⟨hap, hash, _⟩ := assign_result g hl h
  have ga := good_of_shape g hap hash
  have hsz : momSizes a mom = momSizes data mom := by
    unfold momSizes momPos axisSize; rw [hash]
  have hvp : valPos a mom = valPos data mom := by
    unfold valPos momPos; rw [hash]
  have hts : targetShape a mom name sq = targetShape data mom name sq := by
    unfold targetShape
    rw [hsz, hvp]
    congr 1
    unfold axisSize; rw [hash]
  rw [assign_append g hl (l' := (name, v) :: l') (by
    intro p hp
    rcases List.mem_cons.1 hp with rfl | hp
    · exact hv
    · exact hl' p hp) h]
  have hlen := lastShape_length ga
  have hdrop := lastShape_drop ga
  have htake := lastShape_take ga
  obtain ⟨h1, h2, h3⟩ := setItem_spec (a.transpose (lastLayout a.shape.length
    (mom.map (wrap a.shape.length)))) ga.count
    (by rw [hlen]; exact length_le_of_nodup ga.range ga.distinct) (by
      rw [hlen, hdrop]
      intro s hs
      obtain ⟨x, hx, rfl⟩ := List.mem_map.1 hs
      exact ga.positive x hx) name sq v
  rw [hlen, hdrop] at h1 h3
  rw [htake] at h1
  change Selectable name sq (momSizes a mom) → ∃ sub : Sub,
    sub.shape = selShape name sq (momSizes a mom) ∧ _ at h1
  change name ∈ knownNames mom.length → ¬ Selectable name sq (momSizes a mom) → _ at h3
  rw [hsz] at h1 h3
  have fin : ∀ e, setItem (a.transpose (lastLayout a.shape.length
      (mom.map (wrap a.shape.length)))) mom.length name sq v = .error e →
      (if copy then data else (assignMoment a mom ((name, v) :: l') sq false).1,
        (assignMoment a mom ((name, v) :: l') sq false).2)
        = (if copy then data else a, .error e) := by
    intro e he
    rw [assign_first_error ga hv hl' he]
  refine ⟨fun hk => fin _ (h2 hk), fun hk hn => fin _ (h3 hk hn), fun hs hb => fin _ ?_⟩
  obtain ⟨sub, esh, _, _, herr⟩ := h1 hs
  refine herr ?_
  rw [esh]
  change ¬ Broadcasts v.shape ((valPos a mom).map (axisSize a) ++ _)
  rw [← hts] at hb
  unfold targetShape at hb
  rw [hsz] at hb
  exact hb

example : ∃ a, (assignMoment exSel [0] [("var", exVal2)] false false).2 = .ok a ∧
    assignMoment exSel [0] [("var", exVal2), ("yave", exVal)] false false
      = (a, .error .valueError) ∧ a.get (fun ax => 2 - 2 * ax) ≠ exSel.get (fun ax => 2 - 2 * ax) := by
  obtain ⟨a, h, _, h3⟩ := C40_assign exSel [0] exSel_good "var" false false exSel_var exVal2
    exVal2_proper exVal2_fits
  refine ⟨a, by rw [h], (C40_assign_rejects exSel [0] exSel_good [("var", exVal2)] []
    (by simpa using exVal2_proper) (by simp) false false a (by rw [h]) "yave" exVal
    exVal_proper).1 (by decide), ?_⟩
  rw [(h3 _ (by unfold InBounds; decide)).1 [0] (by decide)]
  decide +kernel

end

end Cmomy
