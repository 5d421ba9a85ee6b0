import Verif.Lemmas.ValsRolling

/-!
# Which calls with values and weights are accepted
-/

set_option linter.unusedSectionVars false

namespace Cmomy.Nd

open Axes Spec

section Shapes

/-- The last axis moved back to distance `d` from the end. -/
def unmovedShape (d : ℕ) (s : List ℕ) : List ℕ :=
  (List.range s.length).map (fun p => s.getD (if p = s.length - d then s.length - 1
    else if p < s.length - d then p else p - 1) 0)

theorem unmovedShape_length (d : ℕ) (s : List ℕ) : (unmovedShape d s).length = s.length := by
  simp [unmovedShape]

theorem unmovedShape_getD {d p : ℕ} {s : List ℕ} (hp : p < s.length) :
    (unmovedShape d s).getD p 0 = s.getD (if p = s.length - d then s.length - 1
      else if p < s.length - d then p else p - 1) 0 := by
  rw [List.getD_eq_getElem _ _ (by rwa [unmovedShape_length])]
  simp [unmovedShape]

theorem unmoved_moved {d : ℕ} {s : List ℕ} (h1 : 1 ≤ d) (hd : d ≤ s.length) :
    unmovedShape d (movedShape d s) = s := by
  refine List.ext_getElem (by rw [unmovedShape_length, movedShape_length h1 hd]) fun p h2 h3 => ?_
  have hl := movedShape_length h1 hd
  rw [← List.getD_eq_getElem _ 0, ← List.getD_eq_getElem _ 0, unmovedShape_getD (by omega), hl,
    movedShape_getD h1 hd (by split_ifs <;> omega)]
  congr 1
  split_ifs <;> omega

theorem moved_getD_back {d p : ℕ} {s : List ℕ} (h1 : 1 ≤ d) (hd : d ≤ s.length) (hp : p < s.length) :
    (movedShape d s).getD (if p = s.length - d then s.length - 1
      else if p < s.length - d then p else p - 1) 0 = s.getD p 0 := by
  rw [movedShape_getD h1 hd (by split_ifs <;> omega)]
  congr 1
  split_ifs <;> omega

theorem _root_.Cmomy.Spec.IsBroadcast.unmoved {d : ℕ} {shapes : List (List ℕ)} {full : List ℕ}
    (h : IsBroadcast (shapes.map (movedShape d)) full) (h1 : 1 ≤ d)
    (hd : ∀ s ∈ shapes, d ≤ s.length) (hne : shapes ≠ []) :
    IsBroadcast shapes (unmovedShape d full) := by
  have hrk : ∀ s ∈ shapes, s.length ≤ full.length := by
    intro s hs
    have := h.rank _ (List.mem_map_of_mem hs)
    rwa [movedShape_length h1 (hd s hs)] at this
  have hdf : d ≤ full.length := by
    obtain ⟨s, hs⟩ := List.exists_mem_of_ne_nil _ hne
    exact (hd s hs).trans (hrk s hs)
  refine ⟨?_, ?_, ?_⟩
  · intro s hs
    rw [unmovedShape_length]
    exact hrk s hs
  · intro s hs p hp
    have hds := hd s hs
    have hr := hrk s hs
    have := h.fits _ (List.mem_map_of_mem hs) (if p = s.length - d then s.length - 1
      else if p < s.length - d then p else p - 1)
      (by rw [movedShape_length h1 hds]; split_ifs <;> omega)
    rw [moved_getD_back h1 hds hp, movedShape_length h1 hds] at this
    rw [unmovedShape_length, unmovedShape_getD (by omega)]
    rwa [show (if p + (full.length - s.length) = full.length - d then full.length - 1
      else if p + (full.length - s.length) < full.length - d then p + (full.length - s.length)
      else p + (full.length - s.length) - 1)
        = (if p = s.length - d then s.length - 1 else if p < s.length - d then p else p - 1)
          + (full.length - s.length) by split_ifs <;> omega]
  · intro q hq
    rw [unmovedShape_length] at hq
    obtain ⟨t, ht, h2, h3⟩ := h.attained (if q = full.length - d then full.length - 1
      else if q < full.length - d then q else q - 1) (by split_ifs <;> omega)
    obtain ⟨s, hs, rfl⟩ := List.mem_map.1 ht
    have hds := hd s hs
    have hr := hrk s hs
    rw [movedShape_length h1 hds] at h2 h3
    have hle : full.length ≤ q + s.length := by split_ifs at h2 <;> omega
    refine ⟨s, hs, by rw [unmovedShape_length]; exact hle, ?_⟩
    rw [unmovedShape_length, unmovedShape_getD hq, ← h3, ← moved_getD_back h1 hds
      (p := q + s.length - full.length) (by omega)]
    congr 1
    split_ifs <;> omega

theorem IsBroadcast_unique {shapes : List (List ℕ)} {f g : List ℕ} (hf : IsBroadcast shapes f)
    (hg : IsBroadcast shapes g) : f = g := by
  have e1 := broadcastShapes_iff.2 hf
  have e2 := broadcastShapes_iff.2 hg
  rw [e1] at e2
  exact Except.ok.inj e2

end Shapes

section Accept

variable {K V M : Type*} [Field K] [DecidableEq K]
variable {x : Arr K} {others : List (Arr K)} {z : ℤ}

theorem prepareSecondary_inv {a : Arr K} {d n : ℕ} (h1 : 1 ≤ d) (hp : a.Proper) {ate : Bool}
    {b : Arr K} (h : prepareSecondary a (-(d : ℤ)) n ate = .ok b) : Usable a d n := by
  refine ⟨hp, ?_⟩
  unfold prepareSecondary at h
  by_cases h0 : a.shape.length = 0
  · exact .inl h0
  right
  rw [if_neg h0] at h
  have pyInv : ∀ {l : List ℕ} {e : ℤ} {c : ℕ}, Validate.pyGet l e = .ok c → InRange l.length e ∧
      c = l.getD (wrap l.length e) 0 := by
    intro l e c hc
    by_cases hr : InRange l.length e
    · rw [pyGet_ok hr] at hc
      exact ⟨hr, (Except.ok.inj hc).symm⟩
    · exfalso
      unfold Validate.pyGet at hc
      simp only at hc
      unfold InRange at hr
      split_ifs at hc
      all_goals first
        | cases hc
        | omega
        | (rw [List.getElem?_eq_none (by omega)] at hc; cases hc)
  by_cases hl : a.shape.length = 1
  · left
    rw [if_pos hl] at h
    simp only [Except.bind] at h
    cases hg : Validate.pyGet a.shape (-1) with
    | error e => rw [hg] at h; cases h
    | ok c =>
      rw [hg] at h
      obtain ⟨hr, hc⟩ := pyInv hg
      have hw := wrap_neg hr (by omega)
      simp only at h
      split_ifs at h with hn
      refine ⟨hl, ?_⟩
      rw [← not_not.1 hn, hc]
      unfold axisSize
      congr 1; omega
  · right
    rw [if_neg hl] at h
    refine ⟨by omega, ?_⟩
    by_cases hm : ate = true ∧ -(d : ℤ) ≠ -1
    · rw [if_pos hm] at h
      unfold Arr.moveaxisInt at h
      simp only [List.map_cons, List.map_nil] at h
      have hr : InRange a.shape.length (-(d : ℤ)) := by
        by_contra hr
        have : normalizeAxisTuple (.many [.int (-(d : ℤ))]) a.shape.length none false ≠
            .ok [] ∧ ∀ r, normalizeAxisTuple (.many [.int (-(d : ℤ))]) a.shape.length none false
              ≠ .ok r := by
          have : ∀ r, normalizeAxisTuple (.many [.int (-(d : ℤ))]) a.shape.length none false
              ≠ .ok r := by
            intro r hr'
            have := (normalizeAxes_int_ok_iff [-(d : ℤ)] a.shape.length none false r).1 hr'
            exact hr (this.1 _ (by simp))
          exact ⟨this _, this⟩
        unfold moveaxisOrder at h
        cases hn : normalizeAxisTuple (.many [.int (-(d : ℤ))]) a.shape.length none false with
        | ok r => exact this.2 r hn
        | error e => rw [hn] at h; cases h
      have hw := wrap_neg hr (by omega)
      have hd : d ≤ a.shape.length := by unfold InRange at hr; omega
      refine ⟨hd, ?_⟩
      rw [moveToLast hr, show wrap a.shape.length (-(d : ℤ)) = a.shape.length - d by omega] at h
      simp only [Except.map, Except.bind] at h
      rw [show a.transpose (lastOrder a.shape.length (a.shape.length - d)) = movedArr d a from rfl]
        at h
      cases hg : Validate.pyGet (movedArr d a).shape (-1) with
      | error e => rw [hg] at h; cases h
      | ok c =>
        rw [hg] at h
        obtain ⟨hr', hc⟩ := pyInv hg
        have hw' := wrap_neg hr' (by omega)
        simp only at h
        split_ifs at h with hn
        rw [← movedArr_last h1 hd, ← not_not.1 hn, hc]
        unfold axisSize
        congr 1; omega
    · rw [if_neg hm] at h
      simp only [Except.bind] at h
      cases hg : Validate.pyGet a.shape (-(d : ℤ)) with
      | error e => rw [hg] at h; cases h
      | ok c =>
        rw [hg] at h
        obtain ⟨hr, hc⟩ := pyInv hg
        have hw := wrap_neg hr (by omega)
        simp only at h
        split_ifs at h with hn
        refine ⟨by unfold InRange at hr; omega, ?_⟩
        rw [← not_not.1 hn, hc]
        unfold axisSize
        congr 1; omega

theorem mapM_ok_inv {α β : Type*} {f : α → Py β} {l : List α} {r : List β} (h : l.mapM f = .ok r) :
    ∀ a ∈ l, ∃ b, f a = .ok b := by
  induction l generalizing r with
  | nil => intro a ha; cases ha
  | cons b l ih =>
    rw [List.mapM_cons] at h
    cases hb : f b with
    | error e => rw [hb] at h; cases h
    | ok c =>
      rw [hb] at h
      cases hl : l.mapM f with
      | error e => rw [hl] at h; cases h
      | ok rs =>
        intro a ha
        rcases List.mem_cons.1 ha with rfl | ha
        · exact ⟨c, hb⟩
        · exact ih hl a ha

theorem prepareValues_inv {nar : ℕ} {ate : Bool} {p : ℤ × Arr K × List (Arr K)}
    (hp : ∀ a ∈ others, a.Proper) (h : prepareValues x others nar (.int z) ate = .ok p) :
    others.length + 1 = nar ∧ InRange x.shape.length z ∧
      ∀ a ∈ others, Usable a (fromEnd x z) (sampleCount x z) := by
  unfold prepareValues at h
  by_cases hn : others.length + 1 = nar
  · rw [if_neg (not_not.2 hn)] at h
    refine ⟨hn, ?_⟩
    by_cases hz : InRange x.shape.length z
    · refine ⟨hz, fun a ha => ?_⟩
      obtain ⟨h1, h2, h3⟩ := fromEnd_facts hz
      rw [normalizeAxisIndex_int hz] at h
      simp only [Except.bind] at h
      have hneg : positiveToNegative (wrap x.shape.length z : ℤ) (x.shape.length : ℤ)
          = -(fromEnd x z : ℤ) := by
        unfold positiveToNegative
        rw [if_neg (by omega)]
        omega
      rw [hneg] at h
      split at h
      · cases h
      · split at h
        · cases h
        · rename_i os hos
          obtain ⟨b, hb⟩ := mapM_ok_inv hos a ha
          exact prepareSecondary_inv h1 (hp a ha) hb
    · have : normalizeAxisIndex (.int z) x.shape.length none = .error .axisError :=
        (npNormalize_error _ _ _).2 ⟨rfl, hz⟩
      rw [this] at h
      cases h
  · rw [if_pos hn] at h; cases h

theorem Except_bind_ok {α β : Type*} {e : Py α} {f : α → Py β} {b : β} (h : e.bind f = .ok b) :
    ∃ a, e = .ok a ∧ f a = .ok b := by
  cases e with
  | error e => cases h
  | ok a => exact ⟨a, rfl, h⟩

theorem Except_map_ok {α β : Type*} {e : Py α} {f : α → β} {b : β} (h : e.map f = .ok b) :
    ∃ a, e = .ok a := by
  cases e with
  | error e => cases h
  | ok a => exact ⟨a, rfl⟩

theorem outFromValues_inv {os : List (Arr K)} {mom : List ℕ} {axisNeg : ℤ} {ns : Option ℕ}
    {cf : Bool} {s : List ℕ} (h : outFromValues x os mom axisNeg ns cf = .ok s) :
    ∃ full, IsBroadcast (wideShapes x os) full := by
  unfold outFromValues at h
  obtain ⟨full, hf, _⟩ := Except_bind_ok h
  exact ⟨full, broadcastShapes_iff.1 hf⟩

/-- If the prepared arrays have a common shape, so have the original ones. -/
theorem common_of_prepared (hz : InRange x.shape.length z)
    (hu : ∀ a ∈ others, Usable a (fromEnd x z) (sampleCount x z)) {move : Bool}
    (hmv : move = true → fromEnd x z ≠ 1) {full' : List ℕ}
    (h : IsBroadcast (wideShapes (if move then movedArr (fromEnd x z) x else x)
      (others.map (prepOne move (fromEnd x z) (sampleCount x z)))) full') :
    IsBroadcast (wideShapes x others)
      (if move then unmovedShape (fromEnd x z) full' else full') := by
  obtain ⟨h1, h2, h3⟩ := fromEnd_facts hz
  have hw : wideShapes (if move then movedArr (fromEnd x z) x else x)
      (others.map (prepOne move (fromEnd x z) (sampleCount x z)))
      = (wideShapes x others).map (fun s => if move then movedShape (fromEnd x z) s else s) := by
    unfold wideShapes
    rw [wide_prep move x others h1 (fun a ha h => by
          rcases (hu a ha).2 with h | ⟨h, _⟩ | ⟨_, h, _⟩ <;> omega), List.map_cons]
    congr 1
    split_ifs <;> rfl
  rw [hw] at h
  have hwide : ∀ s ∈ wideShapes x others, fromEnd x z ≤ s.length := by
    intro s hs
    rcases List.mem_cons.1 hs with rfl | hs
    · exact h2
    · obtain ⟨a, ha, rfl⟩ := List.mem_map.1 hs
      obtain ⟨ha, hl⟩ := List.mem_filter.1 ha
      have hl' : 1 < a.shape.length := by simpa using hl
      rcases (hu a ha).2 with h | ⟨h, _⟩ | ⟨_, h, _⟩ <;> omega
  cases move
  · simp only [Bool.false_eq_true, if_false, List.map_id'] at h ⊢
    exact h
  · simp only [if_true] at h ⊢
    exact h.unmoved h1 hwide (by simp [wideShapes])

/-- A prepared call that gets as far as allocating its result is good. -/
theorem good_of_prepared (hx : x.Proper) (hp : ∀ a ∈ others, a.Proper) {nar : ℕ} {ate : Bool}
    {p : ℤ × Arr K × List (Arr K)} (h : prepareValues x others nar (.int z) ate = .ok p)
    {full' : List ℕ} (hf : IsBroadcast (wideShapes p.2.1 p.2.2) full') :
    others.length + 1 = nar ∧ ∃ full, GoodValues x others z full := by
  obtain ⟨h1, h2, h3⟩ := prepareValues_inv hp h
  refine ⟨h1, ?_⟩
  rw [prepareValues_eq h2 h3 ate nar h1] at h
  obtain rfl := Except.ok.inj h
  exact ⟨_, ⟨hx, h2, h3, common_of_prepared h2 h3 (by simp) hf⟩⟩

theorem reduceValsNd_accepts (val : List K → V) {core : Core K M} {fam : List ℕ → Kernel K V M}
    {mom : List ℕ} (hm : mom.length = core.nd) (hnd : core.nd ≠ 0) (hx : x.Proper)
    (hp : ∀ a ∈ others, a.Proper) :
    (∃ out, reduceValsNd val core fam mom (axesLast core.nd) x others (.int z) = .ok out) ↔
      others.length = core.nd ∧ ∃ full, GoodValues x others z full := by
  constructor
  · rintro ⟨out, h⟩
    unfold reduceValsNd reduceValsFrom at h
    obtain ⟨p, hpr, h⟩ := Except_bind_ok h
    obtain ⟨s, hs, h⟩ := Except_bind_ok h
    obtain ⟨full', hf⟩ := outFromValues_inv hs
    obtain ⟨h1, h2⟩ := good_of_prepared hx hp hpr hf
    exact ⟨by omega, h2⟩
  · rintro ⟨hl, full, g⟩
    cases others with
    | nil => simp at hl; omega
    | cons w ys =>
      obtain ⟨out, h, _⟩ := reduceValsNd_spec val (fam := fam) hm (by simpa using hl) g
      exact ⟨out, h⟩

theorem resampleValsNd_accepts (val : List K → V) {core : Core K M} {fam : List ℕ → Kernel K V M}
    {mom : List ℕ} (hm : mom.length = core.nd) (hnd : core.nd ≠ 0) (freq : List (List K))
    (nsamp : ℕ) (hx : x.Proper) (hp : ∀ a ∈ others, a.Proper) (orderCF ate : Bool) :
    (∃ out, resampleValsNd val core fam mom (axesLast core.nd) freq nsamp x others (.int z)
        orderCF ate = .ok out) ↔
      others.length = core.nd ∧ nsamp = sampleCount x z ∧ ∃ full, GoodValues x others z full := by
  constructor
  · rintro ⟨out, h⟩
    have h0 := h
    unfold resampleValsNd resampleValsFrom at h
    obtain ⟨p, hpr, h⟩ := Except_bind_ok h
    obtain ⟨s, hs, h⟩ := Except_bind_ok h
    obtain ⟨full', hf⟩ := outFromValues_inv hs
    obtain ⟨h1, full, g⟩ := good_of_prepared hx hp hpr hf
    refine ⟨by omega, ?_, full, g⟩
    by_contra hne
    cases others with
    | nil => simp at h1; omega
    | cons w ys =>
      rw [resampleValsNd_mismatch val freq (by simpa using h1) g orderCF ate hne] at h0
      cases h0
  · rintro ⟨hl, rfl, full, g⟩
    cases others with
    | nil => simp at hl; omega
    | cons w ys =>
      obtain ⟨out, h, _⟩ := resampleValsNd_spec val (fam := fam) hm freq (by simpa using hl) g orderCF ate
      exact ⟨out, h⟩

theorem jackknifeValsNd_accepts (val : List K → V) {core : Core K M} (hc : core.Ok)
    {fam : List ℕ → Kernel K V M} {mom : List ℕ} (hm : mom.length = core.nd) (hnd : core.nd ≠ 0)
    (hx : x.Proper) (hp : ∀ a ∈ others, a.Proper) (orderCF ate : Bool) :
    (∃ out, jackknifeValsNd val core fam mom (axesLast core.nd) x others (.int z) orderCF ate
        = .ok out) ↔
      others.length = core.nd ∧ ∃ full, GoodValues x others z full := by
  constructor
  · rintro ⟨out, h⟩
    unfold jackknifeValsNd at h
    obtain ⟨red, hr, h⟩ := Except_bind_ok h
    exact (reduceValsNd_accepts val hm hnd hx hp).1 ⟨red, hr⟩
  · rintro ⟨hl, full, g⟩
    cases others with
    | nil => simp at hl; omega
    | cons w ys =>
      obtain ⟨out, h, _⟩ := jackknifeValsNd_spec val hc (fam := fam) hm (by simpa using hl) g orderCF ate
      exact ⟨out, h⟩

end Accept

section Ordered

variable {K V M : Type*} [Field K] [LinearOrder K] [IsStrictOrderedRing K]
variable {x : Arr K} {others : List (Arr K)} {z : ℤ}

theorem getD_set_eq {s : List ℕ} {c p v : ℕ} (hc : c < s.length) :
    (s.set c v).getD p 0 = if p = c then v else s.getD p 0 := by
  by_cases e : p = c
  · rw [if_pos e, e, List.getD_eq_getElem _ _ (by simpa using hc), List.getElem_set_self]
  · rw [if_neg e]
    simp only [List.getD]
    rw [List.getElem?_set_ne (by omega)]

/-- Resizing the sample axis of all arrays does not change whether they have a common shape. -/
theorem _root_.Cmomy.Spec.IsBroadcast.resized {d n m : ℕ} {shapes : List (List ℕ)} {full : List ℕ}
    (h : IsBroadcast (shapes.map (fun s => s.set (s.length - d) m)) full) (h1 : 1 ≤ d)
    (hd : ∀ s ∈ shapes, d ≤ s.length ∧ s.getD (s.length - d) 0 = n) (hne : shapes ≠ []) :
    IsBroadcast shapes (full.set (full.length - d) n) := by
  have hrk : ∀ s ∈ shapes, s.length ≤ full.length := by
    intro s hs
    have := h.rank _ (List.mem_map_of_mem hs)
    rwa [List.length_set] at this
  obtain ⟨s0, hs0⟩ := List.exists_mem_of_ne_nil _ hne
  have hdf : d ≤ full.length := (hd s0 hs0).1.trans (hrk s0 hs0)
  refine ⟨?_, ?_, ?_⟩
  · intro s hs
    rw [List.length_set]
    exact hrk s hs
  · intro s hs p hp
    have hds := (hd s hs).1
    have hr := hrk s hs
    rw [List.length_set, getD_set_eq (by omega)]
    by_cases e : p = s.length - d
    · rw [if_pos (by omega), e]
      exact .inr (hd s hs).2
    · have := h.fits _ (List.mem_map_of_mem hs) p (by rwa [List.length_set])
      rw [List.length_set, getD_set_eq (by omega), if_neg e] at this
      rw [if_neg (by omega)]
      exact this
  · intro q hq
    rw [List.length_set] at hq
    rw [List.length_set, getD_set_eq (by omega)]
    by_cases e : q = full.length - d
    · have hds := hd s0 hs0
      have hr := hrk s0 hs0
      refine ⟨s0, hs0, by omega, ?_⟩
      rw [if_pos e, ← hds.2]
      congr 1; omega
    · obtain ⟨t, ht, h2, h3⟩ := h.attained q hq
      obtain ⟨s, hs, rfl⟩ := List.mem_map.1 ht
      have hds := (hd s hs).1
      have hr := hrk s hs
      rw [List.length_set] at h2 h3
      refine ⟨s, hs, h2, ?_⟩
      rw [if_neg e, ← h3, getD_set_eq (by omega), if_neg (by omega)]

theorem rollingValsNd_accepts (val : List K → V) {core : Core K M} {fam : List ℕ → Kernel K V M}
    {mom : List ℕ} (hm : mom.length = core.nd) (hnd : core.nd ≠ 0) (window : ℕ)
    (minPeriods : Option ℤ) (center zm : Bool) (hx : x.Proper) (hp : ∀ a ∈ others, a.Proper)
    (orderCF ate : Bool) :
    (∃ out, rollingValsNd val core fam mom (axesLast core.nd) window minPeriods center zm x others
        (.int z) orderCF ate = .ok out) ↔
      others.length = core.nd ∧ ∃ full, GoodValues x others z full := by
  constructor
  · rintro ⟨out, h⟩
    unfold rollingValsNd rollingValsFrom at h
    obtain ⟨p, hpr, h⟩ := Except_bind_ok h
    obtain ⟨s, hs, h⟩ := Except_bind_ok h
    obtain ⟨F, hf⟩ := outFromValues_inv hs
    have key : ∃ full', IsBroadcast (wideShapes p.2.1 p.2.2) full' := by
      cases center with
      | false =>
        simp only [Bool.false_eq_true, if_false, List.map_id'] at hf
        exact ⟨F, hf⟩
      | true =>
        simp only [if_true] at hf
        set pad := (-Kernel.centerShift window).toNat
        obtain ⟨hl, hz, hu⟩ := prepareValues_inv hp hpr
        obtain ⟨h1, h2, hw⟩ := fromEnd_facts hz
        rw [prepareValues_eq hz hu ate _ hl] at hpr
        obtain rfl := Except.ok.inj hpr
        have hax1 : (if ate then (-1 : ℤ) else -(fromEnd x z : ℤ))
            = -((if ate && decide (fromEnd x z ≠ 1) then 1 else fromEnd x z : ℕ) : ℤ) := by
          cases ate
          · simp
          · by_cases e : fromEnd x z = 1
            · simp [e]
            · simp [e]
        have hux : Usable x (fromEnd x z) (sampleCount x z) := by
          refine ⟨hx, .inr ?_⟩
          have hc : axisSize x (x.shape.length - fromEnd x z) = sampleCount x z := by
            rw [sampleCount, hw]
          by_cases e : x.shape.length = 1
          · exact .inl ⟨e, by rw [← hc]; congr 1; omega⟩
          · exact .inr ⟨by omega, h2, hc⟩
        have hxm : (if ate && decide (fromEnd x z ≠ 1) then movedArr (fromEnd x z) x else x)
            = prepOne (ate && decide (fromEnd x z ≠ 1)) (fromEnd x z) (sampleCount x z) x :=
          (prepOne_x (by omega) (by simp; omega)).symm
        simp only [hax1, hxm] at hf ⊢
        have hso := fun (a : Arr K) (ha : Usable a (fromEnd x z) (sampleCount x z)) =>
          prepOne_sizes (move := ate && decide (fromEnd x z ≠ 1)) h1 ha
        have hxd : (if ate && decide (fromEnd x z ≠ 1) then 1 else fromEnd x z)
            ≤ (prepOne (ate && decide (fromEnd x z ≠ 1)) (fromEnd x z) (sampleCount x z)
              x).shape.length := by
          rcases hso x hux with ⟨e, _⟩ | ⟨_, e, _⟩
          · rw [e]
            have : (prepOne (ate && decide (fromEnd x z ≠ 1)) (fromEnd x z) (sampleCount x z)
              x).shape.length = x.shape.length := by
              rw [← hxm]
              split_ifs
              · exact movedShape_length h1 h2
              · rfl
            split_ifs <;> omega
          · exact e
        have h1' : 1 ≤ (if ate && decide (fromEnd x z ≠ 1) then 1 else fromEnd x z) := by
          split_ifs <;> omega
        set f := prepOne (ate && decide (fromEnd x z ≠ 1)) (fromEnd x z) (sampleCount x z) with hfdef
        set d' := if ate && decide (fromEnd x z ≠ 1) then 1 else fromEnd x z with hd'
        have hpos : ∀ a : Arr K, d' ≤ a.shape.length → (a.shape.length = 1 → d' = 1) →
            pyIdx a.shape.length (axisOfValue a (-(d' : ℤ))) = a.shape.length - d' := by
          intro a hda hone
          unfold axisOfValue
          split_ifs with e
          · have hr : InRange a.shape.length (-1) := by unfold InRange; omega
            have := wrap_neg hr (by omega)
            have := hone e
            rw [pyIdx_eq hr]; omega
          · have hr : InRange a.shape.length (-(d' : ℤ)) := by unfold InRange; omega
            have := wrap_neg hr (by omega)
            rw [pyIdx_eq hr]; omega
        have hfull : ∀ a : Arr K, Usable a (fromEnd x z) (sampleCount x z) →
            d' ≤ (f a).shape.length → (1 < (f a).shape.length ∨ a = x) →
            (f a).shape.getD ((f a).shape.length - d') 0 = sampleCount x z ∧
            (padAxis (f a) (pyIdx (f a).shape.length (axisOfValue (f a) (-(d' : ℤ)))) pad).shape
              = (f a).shape.set ((f a).shape.length - d') (sampleCount x z + pad) := by
          intro a ha hda hcase
          have hsz : (f a).shape.getD ((f a).shape.length - d') 0 = sampleCount x z := by
            rcases hso a ha with ⟨e, e'⟩ | ⟨_, _, e⟩
            · rw [← e']; unfold axisSize; congr 1; omega
            · exact e
          refine ⟨hsz, ?_⟩
          rw [hpos (f a) hda (fun e => by omega)]
          unfold padAxis
          simp only
          rw [hsz]
        have hmap : wideShapes
            (padAxis (f x) (pyIdx (f x).shape.length (axisOfValue (f x) (-(d' : ℤ)))) pad)
            ((others.map f).map (fun a => padAxis a
              (pyIdx a.shape.length (axisOfValue a (-(d' : ℤ)))) pad))
            = (wideShapes (f x) (others.map f)).map
              (fun s => s.set (s.length - d') (sampleCount x z + pad)) := by
          unfold wideShapes
          rw [List.map_cons, (hfull x hux hxd (.inr rfl)).2]
          congr 1
          have : ∀ l : List (Arr K), (∀ a ∈ l, Usable a (fromEnd x z) (sampleCount x z)) →
              (((l.map f).map (fun a => padAxis a
              (pyIdx a.shape.length (axisOfValue a (-(d' : ℤ)))) pad)).filter
                (fun a => 1 < a.shape.length)).map Arr.shape
              = (((l.map f).filter (fun a => 1 < a.shape.length)).map Arr.shape).map
                (fun s => s.set (s.length - d') (sampleCount x z + pad)) := by
            intro l hl
            induction l with
            | nil => rfl
            | cons a l ih =>
              have ih' := ih (fun b hb => hl b (by simp [hb]))
              have hpl : (padAxis (f a) (pyIdx (f a).shape.length
                  (axisOfValue (f a) (-(d' : ℤ)))) pad).shape.length = (f a).shape.length := by
                simp [padAxis]
              by_cases e : 1 < (f a).shape.length
              · have hda : d' ≤ (f a).shape.length := by
                  rcases hso a (hl a (by simp)) with ⟨e', _⟩ | ⟨_, e', _⟩
                  · omega
                  · exact e'
                rw [List.map_cons, List.map_cons, List.filter_cons_of_pos (by simpa [hpl] using e),
                  List.filter_cons_of_pos (by simpa using e), List.map_cons, List.map_cons,
                  List.map_cons, ih', (hfull a (hl a (by simp)) hda (.inl e)).2]
              · rw [List.map_cons, List.map_cons, List.filter_cons_of_neg (by simpa [hpl] using e),
                  List.filter_cons_of_neg (by simpa using e), ih']
          exact this others hu
        rw [hmap] at hf
        refine ⟨_, hf.resized (n := sampleCount x z) h1' ?_ (by simp [wideShapes])⟩
        intro s hs
        rcases List.mem_cons.1 hs with rfl | hs
        · exact ⟨hxd, (hfull x hux hxd (.inr rfl)).1⟩
        · obtain ⟨a, ha, rfl⟩ := List.mem_map.1 hs
          obtain ⟨ha, hl⟩ := List.mem_filter.1 ha
          have hl' : 1 < a.shape.length := by simpa using hl
          obtain ⟨b, hb, rfl⟩ := List.mem_map.1 ha
          have hda : d' ≤ (f b).shape.length := by
            rcases hso b (hu b hb) with ⟨e', _⟩ | ⟨_, e', _⟩
            · omega
            · exact e'
          exact ⟨hda, (hfull b (hu b hb) hda (.inl hl')).1⟩
    obtain ⟨full', hf'⟩ := key
    obtain ⟨h1, h2⟩ := good_of_prepared hx hp hpr hf'
    exact ⟨by omega, h2⟩
  · rintro ⟨hl, full, g⟩
    cases others with
    | nil => simp at hl; omega
    | cons w ys =>
      obtain ⟨out, h, _⟩ := rollingValsNd_spec val (fam := fam) hm window minPeriods center zm
        (by simpa using hl) g orderCF ate
      exact ⟨out, h⟩

/-- `rolling_exp_vals` refuses an `alpha` that does not fit into the common shape of the others. -/
theorem unmoved_replicate {d k : ℕ} {s : List ℕ} (h1 : 1 ≤ d) (hd : d ≤ s.length) :
    unmovedShape d (List.replicate k 1 ++ s) = List.replicate k 1 ++ unmovedShape d s := by
  refine List.ext_getElem (by simp [unmovedShape_length]) fun p h2 h3 => ?_
  have hp : p < k + s.length := by simpa [unmovedShape_length] using h2
  rw [← List.getD_eq_getElem _ 0, ← List.getD_eq_getElem _ 0, unmovedShape_getD (by simpa using hp)]
  have hl : (List.replicate k 1 ++ s).length = k + s.length := by simp
  rw [hl]
  by_cases hk : p < k
  · rw [if_neg (by omega), if_pos (by omega), List.getD_append _ _ _ _ (by simpa using hk),
      List.getD_append _ _ _ _ (by simpa using hk)]
  · rw [List.getD_append_right _ _ _ p (by simpa using hk), List.length_replicate,
      unmovedShape_getD (by omega), List.getD_append_right _ _ _ _ (by
        rw [List.length_replicate]; split_ifs <;> omega), List.length_replicate]
    congr 1
    split_ifs <;> omega

theorem kept_replicate {k ax : ℕ} {s : List ℕ} (h : ax < s.length) :
    (keptAxes (k + s.length) [k + ax]).map (fun p => (List.replicate k 1 ++ s).getD p 0)
      = List.replicate k 1 ++ (keptAxes s.length [ax]).map (fun p => s.getD p 0) := by
  have hk : k + ax < k + s.length := by omega
  refine List.ext_getElem (by
    simp [keptAxes_single_length h, keptAxes_single_length hk]; omega) fun p h2 h3 => ?_
  have hp : p < k + s.length - 1 := by simpa [keptAxes_single_length hk] using h2
  rw [← List.getD_eq_getElem _ 0, ← List.getD_eq_getElem _ 0, getD_map_kept hk hp]
  by_cases hpk : p < k
  · rw [if_pos (by omega), List.getD_append _ _ _ _ (by simpa using hpk),
      List.getD_append _ _ _ _ (by simpa using hpk)]
  · rw [List.getD_append_right _ _ _ p (by simpa using hpk), List.length_replicate,
      getD_map_kept h (by omega), List.getD_append_right _ _ _ _ (by
        rw [List.length_replicate]; split_ifs <;> omega), List.length_replicate]
    congr 1
    split_ifs <;> omega

theorem rollingExpValsNd_refuses (val : List K → V) {core : Core K M} {fam : List ℕ → Kernel K V M}
    {mom : List ℕ} (hm : mom.length = core.nd) (adjust : Bool) (minPeriods : Option ℤ)
    (zm : Bool) {w alpha : Arr K} {ys : List (Arr K)} (hy : ys.length + 1 = core.nd)
    {full : List ℕ} (g : GoodValues x (w :: ys) z full)
    (hu : Usable alpha (fromEnd x z) (sampleCount x z))
    (hne : ¬ GoodValues x (w :: alpha :: ys) z full) (orderCF ate : Bool) :
    (∃ e, rollingExpValsNd val core fam mom (axesLast core.nd) adjust minPeriods zm x w alpha ys
        (.int z) orderCF ate = .error e) ∧
      ((∀ k, ¬ GoodValues x (w :: alpha :: ys) z (List.replicate k 1 ++ full)) →
        rollingExpValsNd val core fam mom (axesLast core.nd) adjust minPeriods zm x w alpha ys
        (.int z) orderCF ate = .error .valueError) := by
  obtain ⟨h1, h2, hw⟩ := fromEnd_facts g.range
  have hus : ∀ a ∈ w :: alpha :: ys, Usable a (fromEnd x z) (sampleCount x z) := by
    intro a ha
    by_cases e : a = alpha
    · rw [e]; exact hu
    · refine g.usable a ?_
      simp only [List.mem_cons] at ha ⊢
      tauto
  -- an `alpha` with one axis or none always fits
  have hlen : 2 ≤ alpha.shape.length := by
    by_contra hl
    refine hne ⟨g.proper, g.range, hus, ?_⟩
    have : wideShapes x (w :: alpha :: ys) = wideShapes x (w :: ys) := by
      unfold wideShapes
      have : ¬ 1 < alpha.shape.length := by omega
      by_cases hw1 : 1 < w.shape.length <;> simp [this, hw1]
    rw [this]
    exact g.common
  obtain ⟨hda, hna⟩ : fromEnd x z ≤ alpha.shape.length ∧
      axisSize alpha (alpha.shape.length - fromEnd x z) = sampleCount x z := by
    rcases hu.2 with e | ⟨e, _⟩ | ⟨_, e, e'⟩
    · omega
    · omega
    · exact ⟨e, e'⟩
  have hra : InRange alpha.shape.length (-(fromEnd x z : ℤ)) := by unfold InRange; omega
  have hwa := wrap_neg hra (by omega)
  have hfa : fromEnd alpha (-(fromEnd x z : ℤ)) = fromEnd x z := by
    unfold fromEnd at *; omega
  have hsa : sampleCount alpha (-(fromEnd x z : ℤ)) = sampleCount x z := by
    rw [← hna]
    unfold sampleCount
    congr 1; omega
  have ga : GoodValues alpha [] (-(fromEnd x z : ℤ)) alpha.shape :=
    ⟨hu.1, hra, by simp, by
      refine ⟨?_, ?_, ?_⟩
      · intro s hs; rw [show s = alpha.shape by simpa [wideShapes] using hs]
      · intro s hs p hp
        rw [show s = alpha.shape by simpa [wideShapes] using hs]
        right; simp
      · intro q hq
        exact ⟨alpha.shape, by simp [wideShapes], by omega, by simp⟩⟩
  have P := g.prepares ate
  have ra := (ga.prepares ate).ready
  have hpm : prepMove alpha (-(fromEnd x z : ℤ)) ate = prepMove x z ate := by
    unfold prepMove; rw [hfa]
  rw [hpm, hfa, hsa] at ra
  have heq := prepareValues_eq g.range hus ate (core.nd + 2) (by simp [← hy])
  have hcomm := fun F => common_of_prepared (full' := F) g.range hus (move := prepMove x z ate)
    (by unfold prepMove; simp)
  set h := prepOne (prepMove x z ate) (fromEnd x z) (sampleCount x z) with hh
  have hxm : (if prepMove x z ate then movedArr (fromEnd x z) x else x) = h x :=
    (prepOne_x (by omega) (by unfold prepMove; simp; omega)).symm
  have hax1 : (if ate then (-1 : ℤ) else -(fromEnd x z : ℤ))
      = -((if prepMove x z ate then 1 else fromEnd x z : ℕ) : ℤ) := by
    unfold prepMove
    cases ate
    · simp
    · by_cases e : fromEnd x z = 1
      · simp [e]
      · simp [e]
  rw [hax1] at heq
  have hfold : (ate && decide (fromEnd x z ≠ 1)) = prepMove x z ate := rfl
  rw [hfold, hxm] at heq
  simp only [hxm] at hcomm
  have hback : ∀ k, (if prepMove x z ate then unmovedShape (fromEnd x z) (List.replicate k 1 ++
      (if prepMove x z ate then movedShape (fromEnd x z) full else full))
      else List.replicate k 1 ++ (if prepMove x z ate then movedShape (fromEnd x z) full else full))
        = List.replicate k 1 ++ full := by
    intro k
    by_cases e : prepMove x z ate = true
    · simp only [e, if_true]
      rw [unmoved_replicate h1 (by rw [movedShape_length h1 g.d_le.2.2]; exact g.d_le.2.2),
        unmoved_moved h1 g.d_le.2.2]
    · simp only [e, if_false]
      rfl
  set full' := if prepMove x z ate then movedShape (fromEnd x z) full else full
  set d' := if prepMove x z ate then 1 else fromEnd x z
  have r := P.ready
  have hax := P.ax_lt g
  have hal : h alpha ∈ h alpha :: ([] : List (Arr K)).map h := by simp
  unfold rollingExpValsNd rollingExpValsFrom
  rw [heq]
  simp only [Except.bind, List.map_cons]
  rw [r.count]
  have ho := r.out_rows mom (sampleCount x z) orderCF
  rw [List.map_cons] at ho
  rw [ho]
  simp only
  have hao : sampleOperands [(h alpha, axisOfValue (h alpha) (-(d' : ℤ)))] (sampleCount x z)
      = .ok [opOf d' (h alpha)] :=
    sampleOperands_of (as := [h alpha]) (fun a ha => by
      rw [List.mem_singleton.1 ha]; exact ra.operand hal)
      (fun a ha => by rw [List.mem_singleton.1 ha]; exact (ra.isOp hal).size)
  rw [hao]
  simp only
  have hop := r.operands
  rw [List.map_cons (f := h)] at hop
  rw [hop]
  simp only
  have hax' := r.ax_lt
  have hkl := keptAxes_single_length hax'
  set S := (List.range (full'.length + mom.length)).map
    (valuesSize full' (full'.length - d') (sampleCount x z) mom) with hS
  have hl : S.length = full'.length + mom.length := by simp [hS]
  have hget : ∀ p, p < full'.length + mom.length →
      S.getD p 0 = valuesSize full' (full'.length - d') (sampleCount x z) mom p := by
    intro p hp
    rw [List.getD_eq_getElem _ _ (by omega)]
    simp [hS]
  have hc := rows_core (n := full'.length) (nd := core.nd) r.one r.rank
  unfold fillVals
  rw [hl, hm, hc]
  simp only [Except.bind, List.map_cons, List.headD_cons]
  rw [loopAxes_eq, keptAxes_front hax']
  have hol : (keptAxes full'.length [full'.length - d']).map (fun a => S.getD a 0)
      = (keptAxes full'.length [full'.length - d']).map (fun p => full'.getD p 0) := by
    refine List.map_congr_left fun p hp => ?_
    have hp' := mem_keptAxes.1 hp
    rw [hget p (by omega)]
    unfold valuesSize
    rw [if_neg (by simpa using hp'.2), if_pos hp'.1]
  have hsz : S.getD (full'.length - d') 0 = sampleCount x z := by
    rw [hget _ (by omega)]; simp [valuesSize]
  rw [hol, hsz, if_neg (by simp)]
  set outLoop := (keptAxes full'.length [full'.length - d']).map (fun p => full'.getD p 0) with hout
  set rest := outLoop :: [opOf d' (h alpha)].map (fun o => o.1.loopShape [o.2])
    ++ (opOf d' (h x) :: (h w :: ys.map h).map (opOf d')).map (fun o => o.1.loopShape [o.2])
    with hrest
  have hfull' : full'.length - d' < full'.length := hax'
  have key : ∀ k loop, broadcastShapes rest = .ok loop → loop = List.replicate k 1 ++ outLoop →
      GoodValues x (w :: alpha :: ys) z (List.replicate k 1 ++ full) := by
    intro k loop hb e
    have hbc := broadcastShapes_iff.1 hb
    have hmem : (opOf d' (h alpha)).1.loopShape [(opOf d' (h alpha)).2] ∈ rest := by
      simp [hrest]
    have hfit : FitsEnd ((opOf d' (h alpha)).1.loopShape [(opOf d' (h alpha)).2]) loop :=
      ⟨hbc.rank _ hmem, hbc.fits _ hmem⟩
    set F := List.replicate k 1 ++ full' with hF
    have hFl : F.length = k + full'.length := by simp [hF]
    have hloop : loop = (keptAxes F.length [F.length - d']).map (fun p => F.getD p 0) := by
      rw [e, hout, ← kept_replicate hax', hFl, show k + full'.length - d' = k + (full'.length - d') by
        have := r.rank; omega]
    have hFax : F.getD (F.length - d') 0 = sampleCount x z := by
      rw [hF, List.getD_append_right _ _ _ _ (by
        rw [List.length_replicate]; have := r.rank; rw [← hF, hFl]; omega), List.length_replicate,
        ← hF, hFl, show k + full'.length - d' - k = full'.length - d' by have := r.rank; omega,
        r.full_ax]
    refine ⟨g.proper, g.range, hus, ?_⟩
    rw [← hback]
    apply hcomm
    show IsBroadcast (wideShapes (h x) ((w :: alpha :: ys).map h)) F
    · skip
      have hold := r.common
      have hcase : ∀ s ∈ wideShapes (h x) ((w :: alpha :: ys).map h),
          s ∈ wideShapes (h x) ((w :: ys).map h) ∨
            (s = (h alpha).shape ∧ 2 ≤ (h alpha).shape.length) := by
        intro s hs
        rcases List.mem_cons.1 hs with rfl | hs
        · left; simp [wideShapes]
        · obtain ⟨a, ha, rfl⟩ := List.mem_map.1 hs
          obtain ⟨ha, hla⟩ := List.mem_filter.1 ha
          have hla' : 1 < a.shape.length := by simpa using hla
          obtain ⟨b, hb, rfl⟩ := List.mem_map.1 ha
          have hb' : b = alpha ∨ b ∈ w :: ys := by
            simp only [List.mem_cons] at hb ⊢
            tauto
          rcases hb' with rfl | hb'
          · exact .inr ⟨rfl, by omega⟩
          · exact .inl (mem_wideShapes (List.mem_cons_of_mem _ (List.mem_map_of_mem hb')) (by omega))
      have hsub : ∀ s ∈ wideShapes (h x) ((w :: ys).map h),
          s ∈ wideShapes (h x) ((w :: alpha :: ys).map h) := by
        intro s hs
        rcases List.mem_cons.1 hs with rfl | hs
        · simp [wideShapes]
        · obtain ⟨a, ha, rfl⟩ := List.mem_map.1 hs
          obtain ⟨ha, hla⟩ := List.mem_filter.1 ha
          have hla' : 1 < a.shape.length := by simpa using hla
          obtain ⟨b, hb, rfl⟩ := List.mem_map.1 ha
          refine mem_wideShapes (List.mem_cons_of_mem _ (List.mem_map_of_mem ?_)) (by omega)
          simp only [List.mem_cons] at hb ⊢
          tauto
      have hAd : 2 ≤ (h alpha).shape.length → d' ≤ (h alpha).shape.length ∧
          axisSize (h alpha) ((h alpha).shape.length - d') = sampleCount x z := by
        intro h2
        rcases (ra.ok _ hal).2 with ⟨e, _⟩ | ⟨_, hd, hn⟩
        · omega
        · exact ⟨hd, hn⟩
      have hAl : 2 ≤ (h alpha).shape.length → (h alpha).shape.length ≤ F.length ∧
          ∀ p < (h alpha).shape.length, axisSize (h alpha) p = 1 ∨
            axisSize (h alpha) p = F.getD (p + (F.length - (h alpha).shape.length)) 0 := by
        intro h2
        obtain ⟨hd, hn⟩ := hAd h2
        have hfit' : FitsEnd ((h alpha).loopShape [(h alpha).shape.length - d'])
            ((keptAxes F.length [F.length - d']).map (fun p => F.getD p 0)) := by
          have := hfit
          simp only [opOf, if_neg (show ¬ (h alpha).shape.length = 1 by omega)] at this
          rw [← hloop]
          exact this
        obtain ⟨hr, hf⟩ := loop_fits_inv (f := fun p => F.getD p 0) r.one hd
          (by have := r.rank; omega) hfit'
        refine ⟨hr, fun p hp => ?_⟩
        by_cases e : p = (h alpha).shape.length - d'
        · right
          rw [e, hn, show (h alpha).shape.length - d' + (F.length - (h alpha).shape.length)
            = F.length - d' by omega, hFax]
        · exact hf p hp e
      refine ⟨fun s hs => ?_, fun s hs => ?_, fun q hq => ?_⟩
      · rcases hcase s hs with hs | ⟨rfl, h2⟩
        · have := hold.rank s hs; omega
        · exact (hAl h2).1
      · rcases hcase s hs with hs | ⟨rfl, h2⟩
        · intro p hp
          have hr := hold.rank s hs
          rw [hF, List.getD_append_right _ _ _ _ (by
            rw [List.length_replicate, ← hF]; omega), List.length_replicate, ← hF,
            show p + (F.length - s.length) - k = p + (full'.length - s.length) by omega]
          exact hold.fits s hs p hp
        · exact (hAl h2).2
      · by_cases hqk : q < k
        · obtain ⟨s, hs, hs1, hs2⟩ := hbc.attained q (by rw [e]; simp; omega)
          have hol : outLoop.length = full'.length - 1 := by rw [hout, List.length_map, hkl]
          have hll : loop.length = k + (full'.length - 1) := by rw [e]; simp [hol]
          have hsmall : ∀ t ∈ rest, t = (opOf d' (h alpha)).1.loopShape [(opOf d' (h alpha)).2] ∨
              t.length ≤ outLoop.length := by
            intro t ht
            rw [hrest] at ht
            rcases List.mem_append.1 ht with ht | ht
            · rcases List.mem_cons.1 ht with rfl | ht
              · exact .inr le_rfl
              · exact .inl (by simpa using ht)
            · right
              obtain ⟨o, ho, rfl⟩ := List.mem_map.1 ht
              have : ∃ a ∈ h x :: (w :: ys).map h, o = opOf d' a := by
                rcases List.mem_cons.1 ho with rfl | ho
                · exact ⟨_, by simp, rfl⟩
                · obtain ⟨a, ha, rfl⟩ := List.mem_map.1 ho
                  exact ⟨a, by rw [List.map_cons]; exact List.mem_cons_of_mem _ ha, rfl⟩
              obtain ⟨a, ha, rfl⟩ := this
              exact (r.fits ha).1
          rcases hsmall s hs with rfl | hsm
          · have h2 : 2 ≤ (h alpha).shape.length := by
              by_contra hc
              have hp1 : (h alpha).shape.length = 1 := by
                rcases (ra.ok _ hal).2 with ⟨e, _⟩ | ⟨e, _⟩ <;> omega
              have : ((opOf d' (h alpha)).1.loopShape [(opOf d' (h alpha)).2]).length = 0 := by
                simp only [opOf, if_pos hp1]
                rw [loopShape_single, List.length_map, keptAxes_single_length (by omega), hp1]
              omega
            obtain ⟨hd, hn⟩ := hAd h2
            have ho : (opOf d' (h alpha)).1.loopShape [(opOf d' (h alpha)).2]
                = (h alpha).loopShape [(h alpha).shape.length - d'] := by
              simp only [opOf, if_neg (show ¬ (h alpha).shape.length = 1 by omega)]
            have hd1 := r.one
            have hc : (h alpha).shape.length - d' < (h alpha).shape.length := by omega
            rw [ho, loopShape_single, List.length_map, keptAxes_single_length hc] at hs1 hs2
            have hr := (hAl h2).1
            have hrk := r.rank
            rw [getD_map_kept hc (by omega), hll, if_pos (by omega), e, List.getD_append _ _ _ _
              (by simpa using hqk)] at hs2
            refine ⟨(h alpha).shape, ?_, by omega, ?_⟩
            · exact mem_wideShapes (List.mem_cons_of_mem _ (List.mem_map_of_mem (by simp))) h2
            · rw [hF, List.getD_append _ _ _ _ (by simpa using hqk), ← hs2, ← hF]
              show _ = (h alpha).shape.getD _ 0
              congr 1
              omega
          · omega
        · obtain ⟨s, hs, h1, h2⟩ := hold.attained (q - k) (by omega)
          have hr := hold.rank s hs
          refine ⟨s, hsub s hs, by omega, ?_⟩
          rw [hF, List.getD_append_right _ _ _ _ (by rw [List.length_replicate]; omega),
            List.length_replicate, ← h2, ← hF]
          congr 1
          omega
  simp only [List.map_cons] at hrest
  rw [← hrest]
  cases hb : broadcastShapes rest with
  | error e =>
    have := broadcastShapes_error hb
    rw [this]
    exact ⟨⟨_, rfl⟩, fun _ => rfl⟩
  | ok loop =>
    simp only
    have h0 : loop ≠ outLoop := fun e => hne (by simpa using key 0 loop hb (by simpa using e))
    rw [if_pos h0]
    refine ⟨⟨_, rfl⟩, fun hk => ?_⟩
    have : widenError loop outLoop = .valueError := by
      unfold widenError
      exact if_neg fun e => hk _ (key _ loop hb e)
    rw [this]
    rfl

theorem rollingExpValsNd_accepts (val : List K → V) {core : Core K M} {fam : List ℕ → Kernel K V M}
    {mom : List ℕ} (hm : mom.length = core.nd) (adjust : Bool) (minPeriods : Option ℤ)
    (zm : Bool) {w alpha : Arr K} {ys : List (Arr K)} (hx : x.Proper)
    (hp : ∀ a ∈ w :: alpha :: ys, a.Proper) (orderCF ate : Bool) :
    (∃ out, rollingExpValsNd val core fam mom (axesLast core.nd) adjust minPeriods zm x w alpha ys
        (.int z) orderCF ate = .ok out) ↔
      ys.length + 1 = core.nd ∧ ∃ full, GoodValues x (w :: ys) z full ∧
        GoodValues x (w :: alpha :: ys) z full := by
  constructor
  · rintro ⟨out, h⟩
    have h0 := h
    unfold rollingExpValsNd rollingExpValsFrom at h
    obtain ⟨p, hpr, h⟩ := Except_bind_ok h
    obtain ⟨hl, hz, hu⟩ := prepareValues_inv hp hpr
    have hy : ys.length + 1 = core.nd := by simpa using hl
    refine ⟨hy, ?_⟩
    rw [prepareValues_eq hz hu ate _ hl] at hpr
    obtain rfl := Except.ok.inj hpr
    simp only [List.map_cons] at h
    obtain ⟨s, hs, h⟩ := Except_bind_ok h
    obtain ⟨full', hf⟩ := outFromValues_inv hs
    have hu' : ∀ a ∈ w :: ys, Usable a (fromEnd x z) (sampleCount x z) := by
      intro a ha
      refine hu a ?_
      simp only [List.mem_cons] at ha ⊢
      tauto
    have hc := common_of_prepared hz hu' (move := ate && decide (fromEnd x z ≠ 1)) (by simp) hf
    have g : GoodValues x (w :: ys) z _ := ⟨hx, hz, hu', hc⟩
    refine ⟨_, g, ?_⟩
    by_contra hne
    obtain ⟨e, he⟩ := (rollingExpValsNd_refuses val (fam := fam) hm adjust minPeriods zm hy g
      (hu alpha (by simp)) hne orderCF ate).1
    rw [he] at h0
    cases h0
  · rintro ⟨hy, full, g, ga⟩
    obtain ⟨out, h, _⟩ := rollingExpValsNd_spec val (fam := fam) hm adjust minPeriods zm hy g ga
      orderCF ate
    exact ⟨out, h⟩

end Ordered

end Cmomy.Nd
