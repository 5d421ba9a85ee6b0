import Verif.Lemmas.Bridge

/-!
# Reductions: existence, permutation, zero weights
-/

set_option linter.unusedSectionVars false

namespace Cmomy

variable {K V M ι : Type*} [Field K]

namespace Lawful

section

variable [DecidableEq K] {k : Kernel K V M} (h : Lawful k ι)
include h

theorem reduceVals_eq_none_iff (xs : List (V × K)) (o : M) :
    k.reduceVals xs o = none ↔ ∃ pre p post, xs = pre ++ p :: post ∧ p.2 ≠ 0 ∧
      k.weight o + ((pre ++ [p]).map Prod.snd).sum = 0 := by
  rw [h.reduceVals_eq, h.foldScale_eq_none_iff]
  have hw : ∀ l : List (V × K),
      wtot k (l.map (fun p => ((1 : K), k.ofVal p.1 p.2))) = (l.map Prod.snd).sum := by
    intro l
    simp only [wtot, List.map_map, Function.comp_def, h.weight_ofVal, mul_one]
  constructor
  · rintro ⟨pre, p, post, e, hp, hz⟩
    obtain ⟨pre', rest, rfl, rfl, e2⟩ := List.map_eq_append_iff.1 e
    obtain ⟨p', post', rfl, rfl, rfl⟩ := List.map_eq_cons_iff.1 e2
    refine ⟨pre', p', post', rfl, by simpa [h.weight_ofVal] using hp, ?_⟩
    rw [← hw]
    simpa using hz
  · rintro ⟨pre, p, post, rfl, hp, hz⟩
    refine ⟨pre.map _, (1, k.ofVal p.1 p.2), post.map _, by simp; rfl,
      by simpa [h.weight_ofVal] using hp, ?_⟩
    rw [← hw] at hz
    simpa using hz

theorem reduceData_eq_none_iff (xs : List M) (o : M) :
    k.reduceData xs o = none ↔ ∃ pre p post, xs = pre ++ p :: post ∧ k.weight p ≠ 0 ∧
      k.weight o + wsumD k (pre ++ [p]) = 0 := by
  rw [h.reduceData_eq, h.foldScale_eq_none_iff]
  constructor
  · rintro ⟨pre, p, post, e, hp, hz⟩
    obtain ⟨pre', rest, rfl, rfl, e2⟩ := List.map_eq_append_iff.1 e
    obtain ⟨p', post', rfl, rfl, rfl⟩ := List.map_eq_cons_iff.1 e2
    refine ⟨pre', p', post', rfl, by simpa using hp, ?_⟩
    rw [← wtot_map_one]
    simpa using hz
  · rintro ⟨pre, p, post, rfl, hp, hz⟩
    refine ⟨pre.map _, (1, p), post.map _, by simp; rfl, by simpa using hp, ?_⟩
    rw [← wtot_map_one] at hz
    simpa using hz

theorem reduceData_append (a b : List M) (o : M) :
    k.reduceData (a ++ b) o = (k.reduceData a o).bind (k.reduceData b) := by
  simp only [h.reduceData_eq, List.map_append, foldScale_append]

theorem reduceVals_append (a b : List (V × K)) (o : M) :
    k.reduceVals (a ++ b) o = (k.reduceVals a o).bind (k.reduceVals b) := by
  simp only [h.reduceVals_eq, List.map_append, foldScale_append]

theorem reduceData_of_all_zero {l : List M} (hl : ∀ d ∈ l, k.weight d = 0) (o : M) :
    k.reduceData l o = some o := by
  rw [h.reduceData_eq]
  refine h.foldScale_of_all_zero ?_ o
  intro p hp
  obtain ⟨d, hd, rfl⟩ := List.mem_map.1 hp
  simp [hl d hd]

/-- Zero-weight records can be dropped. -/
theorem reduceData_filter (l : List M) (o : M) :
    k.reduceData l o = k.reduceData (l.filter (fun d => k.weight d ≠ 0)) o := by
  induction l generalizing o with
  | nil => rfl
  | cons d l ih =>
    have hc : ∀ (d : M) l o, k.reduceData (d :: l) o = (k.pushData d o).bind (k.reduceData l) :=
      fun _ _ _ => rfl
    by_cases hd : k.weight d = 0
    · rw [hc, h.data_eq, h.scale_skip _ _ _ (by simp [hd]), List.filter_cons_of_neg (by simp [hd])]
      exact ih o
    · rw [hc, List.filter_cons_of_pos (by simp [hd]), hc]
      cases k.pushData d o with
      | none => rfl
      | some r => exact ih r

theorem reduceVals_filter (l : List (V × K)) (o : M) :
    k.reduceVals l o = k.reduceVals (l.filter (fun p => p.2 ≠ 0)) o := by
  induction l generalizing o with
  | nil => rfl
  | cons d l ih =>
    have hc : ∀ (d : V × K) l o, k.reduceVals (d :: l) o =
      (k.pushVal d.1 d.2 o).bind (k.reduceVals l) := fun _ _ _ => rfl
    by_cases hd : d.2 = 0
    · rw [hc, h.pushVal_eq, h.scale_skip _ _ _ (by simp [hd, h.weight_ofVal]),
        List.filter_cons_of_neg (by simp [hd])]
      exact ih o
    · rw [hc, List.filter_cons_of_pos (by simp [hd]), hc]
      cases k.pushVal d.1 d.2 o with
      | none => rfl
      | some r => exact ih r

theorem reduceData_eqv {data : List M} {o o' r : M} (eo : h.Eqv o o')
    (e : k.reduceData data o = some r) : ∃ r', k.reduceData data o' = some r' ∧ h.Eqv r r' := by
  rw [h.reduceData_eq] at e
  obtain ⟨r', e', eq⟩ := h.foldScale_eqv eo e
  exact ⟨r', by rw [h.reduceData_eq]; exact e', eq⟩

end

section ordered

variable [LinearOrder K] [IsStrictOrderedRing K] {k : Kernel K V M} (h : Lawful k ι)

theorem all_zero_of_sum_zero {l : List K} (hl : ∀ x ∈ l, 0 ≤ x) (hs : l.sum = 0) :
    ∀ x ∈ l, x = 0 := by
  induction l with
  | nil => simp
  | cons a l ih =>
    have ha := hl a List.mem_cons_self
    have hl' : ∀ x ∈ l, 0 ≤ x := fun x hx => hl x (List.mem_cons_of_mem _ hx)
    have hs' := List.sum_nonneg hl'
    rw [List.sum_cons] at hs
    intro x hx
    rcases List.mem_cons.1 hx with rfl | hx
    · linarith
    · exact ih hl' (by linarith) x hx

theorem weights_zero_of_wsumD {l : List M} (hl : ∀ d ∈ l, 0 ≤ k.weight d)
    (hs : wsumD k l = 0) : ∀ d ∈ l, k.weight d = 0 := by
  intro d hd
  exact all_zero_of_sum_zero (l := l.map k.weight)
    (by intro x hx; obtain ⟨d, hd, rfl⟩ := List.mem_map.1 hx; exact hl d hd) hs _
    (List.mem_map_of_mem hd)

include h

/-- Two lists of non-negative weights with the same raw sums reduce to the same array. -/
theorem reduce_eqv_of_rsum {l l' : List M} (hl : ∀ d ∈ l, 0 ≤ k.weight d)
    (hl' : ∀ d ∈ l', 0 ≤ k.weight d) (hs : h.rsum l = h.rsum l') :
    ∃ r r', k.reduceDataFromZero l = some r ∧ k.reduceDataFromZero l' = some r' ∧ h.Eqv r r' := by
  obtain ⟨r, e⟩ := h.reduceData_exists (data := l) (o := k.zero) (by rw [h.weight_zero]) hl
  obtain ⟨r', e'⟩ := h.reduceData_exists (data := l') (o := k.zero) (by rw [h.weight_zero]) hl'
  refine ⟨r, r', e, e', ?_⟩
  have hw : wsumD k l = wsumD k l' := by rw [← h.rsum_i0, ← h.rsum_i0, hs]
  by_cases hz : wsumD k l = 0
  · rw [h.reduceData_of_all_zero (weights_zero_of_wsumD hl hz)] at e
    rw [h.reduceData_of_all_zero (weights_zero_of_wsumD hl' (hw ▸ hz))] at e'
    cases e; cases e'
    exact Eqv.refl _
  · refine h.eqv_of_raw ?_ ?_
    · rw [h.reduceData_weight e, h.weight_zero, zero_add]; exact hz
    · rw [h.reduceData_raw e, h.reduceData_raw e', hs]

end ordered

end Lawful

end Cmomy
