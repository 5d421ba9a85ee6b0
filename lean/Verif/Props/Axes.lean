import Verif.Lemmas.Axes
import Mathlib.Tactic.NormNum
import Mathlib.Data.Rat.Cast.Defs

/-!
# C37, C38: moving and naming axes
-/

namespace Cmomy

open Spec Axes

/-! ## C37 -/

/-- `moveaxis_order` succeeds on every list of distinct sources and equally many distinct
destinations that name axes of the array. -/
theorem C37_defined (n : ℕ) (src dst : List ℤ) (hlen : src.length = dst.length)
    (hs : ∀ z ∈ src, InRange n z) (hd : ∀ z ∈ dst, InRange n z)
    (hs' : (src.map (wrap n)).Nodup) (hd' : (dst.map (wrap n)).Nodup) :
    ∃ order, moveaxisOrder n (src.map .int) (dst.map .int) = .ok order := by
  have e1 := (normalizeAxes_int_ok_iff src n none false _).2 ⟨hs, rfl, .inr hs'⟩
  have e2 := (normalizeAxes_int_ok_iff dst n none false _).2 ⟨hd, rfl, .inr hd'⟩
  obtain ⟨o, ho, _⟩ := moveaxisCore_spec (n := n) (s := src.map (wrap n)) (d := dst.map (wrap n))
    (by simpa using hlen) hs' hd'
    (by intro a ha; obtain ⟨z, hz, rfl⟩ := List.mem_map.1 ha; exact wrap_lt (hs z hz))
    (by intro a ha; obtain ⟨z, hz, rfl⟩ := List.mem_map.1 ha; exact wrap_lt (hd z hz))
  refine ⟨o, ?_⟩
  simp only [moveaxisOrder, normalizeAxisTuple, e1, e2]
  exact ho

example : moveaxisOrder 5 ([4, -4].map .int) ([0, -1].map .int) = .ok [4, 0, 2, 3, 1] := by
  decide +kernel

/-- `moveaxis_order` returns exactly the rearrangement that puts every source at its destination
and keeps all other axes in order; it returns nothing unless sources and destinations are equally
many, in range and distinct. -/
theorem C37_moveaxis_order (n : ℕ) (src dst : List ℤ) (order : List ℕ) :
    moveaxisOrder n (src.map .int) (dst.map .int) = .ok order ↔
      src.length = dst.length ∧ (∀ z ∈ src, InRange n z) ∧ (∀ z ∈ dst, InRange n z) ∧
      (src.map (wrap n)).Nodup ∧ (dst.map (wrap n)).Nodup ∧
      IsAxisMove n ((src.map (wrap n)).zip (dst.map (wrap n))) order := by
  have main : ∀ order, moveaxisOrder n (src.map .int) (dst.map .int) = .ok order →
      src.length = dst.length ∧ (∀ z ∈ src, InRange n z) ∧ (∀ z ∈ dst, InRange n z) ∧
      (src.map (wrap n)).Nodup ∧ (dst.map (wrap n)).Nodup ∧
      IsAxisMove n ((src.map (wrap n)).zip (dst.map (wrap n))) order := by
    intro order h
    unfold moveaxisOrder at h
    simp only [normalizeAxisTuple] at h
    cases e1 : normalizeAxes (src.map .int) n none false with
    | error e => rw [e1] at h; cases h
    | ok s =>
      cases e2 : normalizeAxes (dst.map .int) n none false with
      | error e => rw [e1, e2] at h; cases h
      | ok d =>
        rw [e1, e2] at h
        have h : moveaxisCore n s d = .ok order := h
        obtain ⟨a1, rfl, a3⟩ := (normalizeAxes_int_ok_iff _ _ _ _ _).1 e1
        obtain ⟨b1, rfl, b3⟩ := (normalizeAxes_int_ok_iff _ _ _ _ _).1 e2
        have a3 := a3.resolve_left (by decide)
        have b3 := b3.resolve_left (by decide)
        have hlen : (src.map (wrap n)).length = (dst.map (wrap n)).length := by
          by_contra hc
          unfold moveaxisCore at h
          rw [if_pos hc] at h; cases h
        obtain ⟨o, ho, hm⟩ := moveaxisCore_spec hlen a3 b3
          (by intro a ha; obtain ⟨z, hz, rfl⟩ := List.mem_map.1 ha; exact wrap_lt (a1 z hz))
          (by intro a ha; obtain ⟨z, hz, rfl⟩ := List.mem_map.1 ha; exact wrap_lt (b1 z hz))
        rw [ho, Except.ok.injEq] at h
        subst h
        exact ⟨by simpa using hlen, a1, b1, a3, b3, hm⟩
  refine ⟨main order, ?_⟩
  rintro ⟨h1, h2, h3, h4, h5, h6⟩
  obtain ⟨o, ho⟩ := C37_defined n src dst h1 h2 h3 h4 h5
  have := (main o ho).2.2.2.2.2
  rw [ho, isAxisMove_unique (by simpa using h1) this h6]

example : IsAxisMove 5 (([4, -4].map (wrap 5)).zip ([0, -1].map (wrap 5))) [4, 0, 2, 3, 1] :=
  ((C37_moveaxis_order 5 [4, -4] [0, -1] [4, 0, 2, 3, 1]).1 (by decide +kernel)).2.2.2.2.2

/-- Moving axes and then moving them back restores every axis. -/
theorem C37_move_back (n : ℕ) (src dst : List ℤ) (o o' : List ℕ)
    (h : moveaxisOrder n (src.map .int) (dst.map .int) = .ok o)
    (h' : moveaxisOrder n (dst.map .int) (src.map .int) = .ok o') (i : ℕ) (hi : i < n) :
    ∃ j, o'[i]? = some j ∧ o[j]? = some i := by
  obtain ⟨h1, h2, h3, h4, h5, h6⟩ := (C37_moveaxis_order _ _ _ _).1 h
  have h6' := ((C37_moveaxis_order _ _ _ _).1 h').2.2.2.2.2
  have hinv := isAxisMove_inverse (by simpa using h1) h6
  have e := isAxisMove_unique (by simpa using h1.symm) h6' hinv
  have hmem : i ∈ o := by rw [h6.perm.mem_iff]; exact List.mem_range.2 hi
  refine ⟨o.idxOf i, ?_, ?_⟩
  · rw [e, List.getElem?_map, List.getElem?_range hi]; rfl
  · rw [List.getElem?_eq_getElem (List.idxOf_lt_length_iff.2 hmem), List.getElem_idxOf]

example : moveaxisOrder 4 ([3, 0].map .int) ([0, 1].map .int) = .ok [3, 0, 1, 2] ∧
    moveaxisOrder 4 ([0, 1].map .int) ([3, 0].map .int) = .ok [1, 2, 3, 0] := by decide +kernel

/-- Wrong arguments are refused: an axis number out of range first of all in the sources, then
repeated sources, then the same for the destinations, then unequal lengths. -/
theorem C37_rejects (n : ℕ) (src dst : List ℤ) :
    ((∃ z ∈ src, ¬ InRange n z) →
      moveaxisOrder n (src.map .int) (dst.map .int) = .error .axisError) ∧
    ((∀ z ∈ src, InRange n z) → ¬ (src.map (wrap n)).Nodup →
      moveaxisOrder n (src.map .int) (dst.map .int) = .error .valueError) ∧
    ((∀ z ∈ src, InRange n z) → (src.map (wrap n)).Nodup → (∃ z ∈ dst, ¬ InRange n z) →
      moveaxisOrder n (src.map .int) (dst.map .int) = .error .axisError) ∧
    ((∀ z ∈ src, InRange n z) → (src.map (wrap n)).Nodup → (∀ z ∈ dst, InRange n z) →
      (¬ (dst.map (wrap n)).Nodup ∨ src.length ≠ dst.length) →
      moveaxisOrder n (src.map .int) (dst.map .int) = .error .valueError) := by
  have bad : ∀ zs : List ℤ, (∃ z ∈ zs, ¬ InRange n z) →
      normalizeAxes (zs.map .int) n none false = .error .axisError := by
    intro zs h
    have : (zs.map AxisArg.int).mapM (fun a => normalizeAxisIndex a n none)
        = .error .axisError := by
      induction zs with
      | nil => obtain ⟨z, hz, _⟩ := h; simp at hz
      | cons z zs ih =>
        rw [List.map_cons, List.mapM_cons]
        by_cases hz : InRange n z
        · have e : normalizeAxisIndex (.int z) n none = .ok (wrap n z) :=
            (npNormalize_int z n _).2 ⟨hz, rfl⟩
          rw [e]
          have := ih (by
            obtain ⟨y, hy, hy'⟩ := h
            rcases List.mem_cons.1 hy with rfl | hy
            · exact absurd hz hy'
            · exact ⟨y, hy, hy'⟩)
          show Except.bind (List.mapM _ _) _ = _
          rw [this]; rfl
        · have e : normalizeAxisIndex (.int z) n none = .error .axisError :=
            (npNormalize_error z n _).2 ⟨rfl, hz⟩
          rw [e]; rfl
    unfold normalizeAxes
    rw [this]; rfl
  have dup : ∀ zs : List ℤ, (∀ z ∈ zs, InRange n z) → ¬ (zs.map (wrap n)).Nodup →
      normalizeAxes (zs.map .int) n none false = .error .valueError := by
    intro zs h hd
    have := ((normalizeAxes_int_ok_iff zs n none true _).2 ⟨h, rfl, .inl rfl⟩)
    have e : (zs.map AxisArg.int).mapM (fun a => normalizeAxisIndex a n none)
        = .ok (zs.map (wrap n)) :=
      (mapM_ok_iff _ _ _).2 ((normalizeAxes_ok_iff _ _ _ _ _).1 this).1
    unfold normalizeAxes
    rw [e]
    show (if (!false && !decide (zs.map (wrap n)).Nodup) = true then _ else _) = _
    rw [if_pos (by simpa using hd)]
  refine ⟨?_, ?_, ?_, ?_⟩
  · intro h; simp only [moveaxisOrder, normalizeAxisTuple, bad src h]; rfl
  · intro h h'; simp only [moveaxisOrder, normalizeAxisTuple, dup src h h']; rfl
  · intro h h' hb
    have e1 := (normalizeAxes_int_ok_iff src n none false _).2 ⟨h, rfl, .inr h'⟩
    simp only [moveaxisOrder, normalizeAxisTuple, e1, bad dst hb]; rfl
  · intro h h' hd hor
    have e1 := (normalizeAxes_int_ok_iff src n none false _).2 ⟨h, rfl, .inr h'⟩
    by_cases hn : (dst.map (wrap n)).Nodup
    · have e2 := (normalizeAxes_int_ok_iff dst n none false _).2 ⟨hd, rfl, .inr hn⟩
      have hl := hor.resolve_left (by simpa using hn)
      simp only [moveaxisOrder, normalizeAxisTuple, e1, e2]
      show moveaxisCore _ _ _ = _
      unfold moveaxisCore
      rw [if_pos (by simpa using hl)]
    · simp only [moveaxisOrder, normalizeAxisTuple, e1, dup dst hd hn]; rfl

example : moveaxisOrder 3 ([0, -3].map .int) ([0, 1].map .int) = .error .valueError ∧
    moveaxisOrder 3 ([0, 3].map .int) ([0, 1].map .int) = .error .axisError ∧
    moveaxisOrder 3 ([0, 1].map .int) ([0].map .int) = .error .valueError := by decide +kernel

/-! ## C38 -/

/-- Exactly the numbers `-ndim, ..., ndim-1` are accepted, and they are wrapped around. -/
theorem C38_int_axis (z : ℤ) (n : ℕ) (m : Option ℕ) (r : ℕ) :
    normalizeAxisIndex (.int z) n m = .ok r ↔ InRange n z ∧ r = wrap n z :=
  npNormalize_int z n r

example : normalizeAxisIndex (.int (-1)) 4 (some 2) = .ok 3 := by decide +kernel

/-- Each axis `0, ..., ndim-1` has exactly two names: itself and itself minus `ndim`. -/
theorem C38_two_names (z : ℤ) (n : ℕ) (m : Option ℕ) (r : ℕ) :
    normalizeAxisIndex (.int z) n m = .ok r ↔ r < n ∧ (z = r ∨ z = r - n) := by
  rw [C38_int_axis]
  unfold InRange wrap
  constructor
  · rintro ⟨⟨h1, h2⟩, rfl⟩
    by_cases h0 : z < 0
    · have : z % (n : ℤ) = z + n := by
        rw [← Int.add_emod_right, Int.emod_eq_of_lt (by omega) (by omega)]
      rw [this]; omega
    · rw [Int.emod_eq_of_lt (by omega) (by omega)]; omega
  · rintro ⟨h, rfl | rfl⟩
    · rw [Int.emod_eq_of_lt (by omega) (by omega)]; omega
    · rw [Int.sub_emod_right, Int.emod_eq_of_lt (by omega) (by omega)]; omega

/-- Everything else is refused: other integers with numpy's `AxisError`, floats with `TypeError`,
imaginary axes with `AxisError` when the truncated imaginary part is out of range of the value
dimensions. -/
theorem C38_rejects (z : ℤ) (re im : ℚ) (n m : ℕ) (mo : Option ℕ) (e : PyErr) :
    (normalizeAxisIndex (.int z) n mo = .error e ↔ e = .axisError ∧ ¬ InRange n z) ∧
    (normalizeAxisIndex .float n mo = .error .typeError) ∧
    (normalizeAxisIndex (.complex re im) n (some m) = .error e ↔
      e = .axisError ∧ ¬ (m ≤ n ∧ InRange (n - m) (truncate im))) := by
  refine ⟨npNormalize_error z n e, rfl, ?_⟩
  refine (npNormalize_error (truncate im) ((n : ℤ) - m) e).trans
    (and_congr_right fun _ => not_congr ?_)
  unfold InRange
  constructor
  · rintro ⟨h1, h2⟩; omega
  · rintro ⟨h0, h1, h2⟩; omega

/-- `int(x)` drops the fraction. -/
theorem truncate_int (z : ℤ) : truncate (z : ℚ) = z := by
  simp [truncate]

/-- An imaginary axis counts relative to the first `ndim - mom_ndim` axes; its real part is
ignored. -/
theorem C38_imaginary_axis (re im : ℚ) (n m r : ℕ) :
    normalizeAxisIndex (.complex re im) n (some m) = .ok r ↔
      m ≤ n ∧ InRange (n - m) (truncate im) ∧ r = wrap (n - m) (truncate im) := by
  by_cases h : m ≤ n
  · have e : (n : ℤ) - m = ((n - m : ℕ) : ℤ) := by omega
    show npNormalize (truncate im) ((n : ℤ) - m) = .ok r ↔ _
    rw [e, npNormalize_int]
    tauto
  · constructor
    · intro hr
      have := ((C38_rejects 0 re im n m none .axisError).2.2).2 ⟨rfl, by tauto⟩
      rw [this] at hr; cases hr
    · rintro ⟨h', _⟩; exact absurd h' h

example : normalizeAxisIndex (.complex 7 (-1)) 4 (some 2) = .ok 1 ∧
    normalizeAxisIndex (.complex 0 (3 / 2)) 4 (some 2) = .ok 1 := by decide +kernel

/-- The axes that are not moment axes, in order. -/
def Spec.valueAxes (n : ℕ) (momAxes : List ℕ) : List ℕ :=
  (List.range n).filter (fun a => a ∉ momAxes)

/-- When the moment axes come last, `z j` names the `z`-th value axis (wrapped around). -/
theorem C38_imaginary_names_value_axis (re : ℚ) (z : ℤ) (n : ℕ) (momAxes : List ℕ)
    (hm : momAxes.Perm (List.range' (n - momAxes.length) momAxes.length))
    (hn : momAxes.length ≤ n) (hz : InRange (n - momAxes.length) z) :
    ∃ r, normalizeAxisIndex (.complex re z) n (some momAxes.length) = .ok r ∧
      (valueAxes n momAxes)[wrap (n - momAxes.length) z]? = some r := by
  refine ⟨wrap (n - momAxes.length) z,
    (C38_imaginary_axis re z n _ _).2 ⟨hn, by rw [truncate_int]; exact hz, by rw [truncate_int]⟩, ?_⟩
  have hv : valueAxes n momAxes = List.range (n - momAxes.length) := by
    unfold valueAxes
    have hsplit : List.range n = List.range (n - momAxes.length)
        ++ List.range' (n - momAxes.length) momAxes.length := by
      have := (List.range'_append_1 (s := 0) (m := n - momAxes.length) (n := momAxes.length)).symm
      rw [Nat.zero_add, Nat.sub_add_cancel hn] at this
      rw [List.range_eq_range', List.range_eq_range', this]
    rw [hsplit, List.filter_append]
    have h1 : (List.range (n - momAxes.length)).filter (fun a => a ∉ momAxes)
        = List.range (n - momAxes.length) := by
      rw [List.filter_eq_self]
      intro a ha
      have : a ∉ momAxes := by
        rw [hm.mem_iff, List.mem_range'_1]
        have := List.mem_range.1 ha
        omega
      simpa using this
    have h2 : (List.range' (n - momAxes.length) momAxes.length).filter (fun a => a ∉ momAxes)
        = [] := by
      rw [List.filter_eq_nil_iff]
      intro a ha
      simpa using hm.mem_iff.2 ha
    rw [h1, h2, List.append_nil]
  rw [hv, List.getElem?_range (wrap_lt hz)]

example : ([3, 2].Perm (List.range' (4 - 2) 2)) ∧ InRange (4 - 2) (-1) ∧
    normalizeAxisIndex (.complex 0 (-1)) 4 (some 2) = .ok 1 := by
  refine ⟨by decide, by unfold InRange; decide, by decide +kernel⟩

/-- Disagreement: with the moment axis in front, `0j` names the moment axis itself, and `-1j` names
the last but one value axis, in every array with at least two value axes. -/
theorem C38_imaginary_wrong_for_leading_moments (n : ℕ) (hn : 3 ≤ n) :
    normalizeAxisIndex (.complex 0 (0 : ℤ)) n (some 1) = .ok 0 ∧ 0 ∉ valueAxes n [0] ∧
    normalizeAxisIndex (.complex 0 (-1 : ℤ)) n (some 1) = .ok (n - 2) ∧
    (valueAxes n [0])[wrap (n - 1) (-1)]? = some (n - 1) := by
  refine ⟨?_, by simp [valueAxes], ?_, ?_⟩
  · rw [C38_imaginary_axis, truncate_int]
    refine ⟨by omega, ?_, ?_⟩
    · unfold InRange; omega
    · simp [wrap]
  · rw [C38_imaginary_axis, truncate_int]
    refine ⟨by omega, ?_, ?_⟩
    · unfold InRange; omega
    · unfold wrap
      rw [← Int.add_emod_right, Int.emod_eq_of_lt (by omega) (by omega)]
      omega
  · have hw : wrap (n - 1) (-1) = n - 2 := by
      unfold wrap
      rw [← Int.add_emod_right, Int.emod_eq_of_lt (by omega) (by omega)]
      omega
    obtain ⟨k, rfl⟩ : ∃ k, n = k + 3 := ⟨n - 3, by omega⟩
    have hv : valueAxes (k + 3) [0] = (List.range (k + 2)).map Nat.succ := by
      unfold valueAxes
      rw [List.range_succ_eq_map, List.filter_cons_of_neg (by simp), List.filter_eq_self]
      intro a ha
      obtain ⟨b, _, rfl⟩ := List.mem_map.1 ha
      simp
    rw [hw, hv, List.getElem?_map, List.getElem?_range (by omega)]
    simp

/-- A tuple is normalised element by element; repeats (of the same axis under either name) are
refused unless explicitly allowed. -/
theorem C38_tuple (as : List AxisArg) (n : ℕ) (m : Option ℕ) (dup : Bool) (rs : List ℕ) :
    normalizeAxisTuple (.many as) n m dup = .ok rs ↔
      rs.length = as.length ∧
      (∀ (k : ℕ) (a : AxisArg) (r : ℕ), as[k]? = some a → rs[k]? = some r → normalizeAxisIndex a n m = .ok r) ∧
      (dup = false → rs.Nodup) := by
  refine (normalizeAxes_ok_iff as n m dup rs).trans ?_
  rw [← and_assoc]
  refine and_congr ?_ (by cases dup <;> simp)
  constructor
  · intro h
    refine ⟨by simpa using (congrArg List.length h).symm, ?_⟩
    intro k a r ha hr
    have := congrArg (fun l => l[k]?) h
    simpa [List.getElem?_map, ha, hr] using this
  · rintro ⟨hl, h⟩
    refine List.ext_getElem (by simpa using hl.symm) ?_
    intro k h1 h2
    simp only [List.getElem_map]
    simp only [List.length_map] at h1 h2
    exact h k _ _ (List.getElem?_eq_getElem h1) (List.getElem?_eq_getElem h2)

example : normalizeAxisTuple (.many [.int 0, .complex 0 (-1)]) 3 (some 1) false = .ok [0, 1] ∧
    normalizeAxisTuple (.many [.int 1, .complex 0 (-1)]) 3 (some 1) false = .error .valueError ∧
    normalizeAxisTuple (.many [.int 1, .complex 0 (-1)]) 3 (some 1) true = .ok [1, 1] := by
  decide +kernel

/-- `axis=None` selects the first `ndim - mom_ndim` axes: the value axes when the moment axes come
last. -/
theorem C38_all_axes (n : ℕ) (momAxes : List ℕ) (dup : Bool)
    (hm : momAxes.Perm (List.range' (n - momAxes.length) momAxes.length))
    (hn : momAxes.length ≤ n) :
    normalizeAxisTuple .all n (some momAxes.length) dup = .ok (valueAxes n momAxes) := by
  refine congrArg Except.ok ?_
  refine List.ext_getElem? fun i => ?_
  by_cases hi : i < n - momAxes.length
  · obtain ⟨r, h1, h2⟩ := C38_imaginary_names_value_axis 0 (i : ℤ) n momAxes hm hn
      (by unfold InRange; omega)
    have hw : wrap (n - momAxes.length) (i : ℤ) = i := by
      unfold wrap
      rw [Int.emod_eq_of_lt (by omega) (by omega)]; simp
    rw [hw] at h2
    have h3 := ((C38_imaginary_axis 0 (i : ℤ) n momAxes.length r).1 h1).2.2
    rw [truncate_int, hw] at h3
    rw [h2, h3, List.getElem?_range hi]
  · have hlen : (valueAxes n momAxes).length = n - momAxes.length := by
      have hnd : momAxes.Nodup := hm.nodup_iff.2 List.nodup_range'
      have := (filter_range_perm (n := n) hnd (by
        intro a ha
        have := List.mem_range'_1.1 (hm.mem_iff.1 ha)
        omega)).length_eq
      rw [List.length_append, List.length_range] at this
      unfold valueAxes; omega
    rw [List.getElem?_eq_none (by simpa using hi), List.getElem?_eq_none (by omega)]

example : normalizeAxisTuple .all 4 (some 2) false = .ok (valueAxes 4 [2, 3]) ∧
    valueAxes 4 [2, 3] = [0, 1] := by decide +kernel

/-- `positive_to_negative_index` gives the negative name of the same axis, and leaves negative
names alone. -/
theorem C38_negative_name (z : ℤ) (n : ℕ) (m : Option ℕ) (r : ℕ) :
    normalizeAxisIndex (.int z) n m = .ok r ↔
      normalizeAxisIndex (.int (positiveToNegative z n)) n m = .ok r ∧
      positiveToNegative z n < 0 := by
  rw [C38_two_names, C38_two_names]
  unfold positiveToNegative
  by_cases h : z < 0
  · rw [if_pos h]; omega
  · rw [if_neg h]
    constructor
    · rintro ⟨h1, h2⟩; omega
    · rintro ⟨⟨h1, h2⟩, h3⟩; omega

example : positiveToNegative 2 4 = -2 ∧ positiveToNegative (-1) 4 = -1 := by decide

end Cmomy
